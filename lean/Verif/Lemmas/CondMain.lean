import Verif.Lemmas.GetScenarios
namespace CfnLint
open Spec

theorem wfDict_mem_cond {kv : Key × Val} : ∀ {l : List (Key × Val)}, Val.WFDict l → kv ∈ l → kv.2.WF := by
  intro l
  induction l with
  | nil => intro _ h; cases h
  | cons x xs ih =>
    intro h hm
    rcases List.mem_cons.1 hm with rfl | hm
    · exact h.1
    · exact ih h.2 hm

theorem condsNoHash_of {H : Val → String} {t : List (Key × Val)}
    (h : NoHashLiterals H (conditionsOf t)) : CondsNoHash H (.dict t) := by
  intro kvs hk
  rw [getD_dict] at hk
  simp only [Except.ok.injEq] at hk
  cases hd : dlookup (Key.str "Conditions") t with
  | none =>
    rw [hd] at hk
    simp only [Option.getD_none, Val.dict.injEq] at hk
    rw [← hk]
    exact noHash_empty H
  | some w =>
    rw [hd] at hk
    simp only [Option.getD_some] at hk
    subst hk
    intro s hs
    rw [LitIn] at hs
    refine h s ?_
    simp only [conditionsOf, hd]
    exact hs

theorem toVal_keys (kvs : List (Key × Val)) : kvs.map (fun kv => kv.1.toVal) =
    (kvs.map Prod.fst).map Key.toVal := by simp

theorem lookup_key {t conds : List (Key × Val)} (c : Key)
    (ht : dlookup (Key.str "Conditions") t = some (.dict conds)) :
    lookupCondition (.dict t) c.toVal = .ok ((dlookup c conds).getD (.dict [])) := by
  cases c <;> simp [lookupCondition, getD_dict, ht, Key.toVal]

theorem condByName_key {rec : Val → ParseOut} {t conds : List (Key × Val)} (c : Key)
    (ht : dlookup (Key.str "Conditions") t = some (.dict conds)) :
    condByName rec (.dict t) c.toVal = finishCondition (rec ((dlookup c conds).getD (.dict []))) := by
  have := lookup_key c ht
  cases c <;> simp only [Key.toVal] at this ⊢ <;> simp [condByName, this]

/-- What is known of any loaded condition. -/
theorem table_ok {H : Val → String} {fuel : Nat} {t : List (Key × Val)} {tb : CondTable}
    {e : Option PyErr} (hn : NoHashLiterals H (conditionsOf t))
    (hi : Conditions.init H fuel (.dict t) = (tb, e)) :
    ∀ c r, dlookup c tb.conds = some r → CondOK H r := by
  have hc := condsNoHash_of hn
  have key : ∀ names cs e, loadConds H (.dict t) fuel names [] = (cs, e) →
      ∀ c r, dlookup c cs = some r → CondOK H r := by
    intro names cs e h c r hr
    rcases loadConds_sound names [] cs e h c r hr with h | ⟨n, h⟩
    · simp [dlookup] at h
    · exact condByName_ok hc (processCondition_ok hc fuel) h
  unfold Conditions.init at hi
  rw [getD_dict] at hi
  simp only at hi
  cases hp : pyIterVal ((dlookup (Key.str "Conditions") t).getD (.dict [])) with
  | error x =>
    rw [hp] at hi
    simp only [Prod.mk.injEq] at hi
    rw [← hi.1]
    simp [dlookup]
  | ok names =>
    rw [hp] at hi
    simp only at hi
    rcases hl : loadConds H (.dict t) fuel names [] with ⟨cs, e'⟩
    have := key names cs e' hl
    rw [hl] at hi
    cases e' with
    | some x =>
      simp only [Prod.mk.injEq] at hi
      rw [← hi.1]
      exact this
    | none =>
      simp only [getD_dict] at hi
      split at hi
      · next heq => cases heq
      · next heq =>
        simp only [Prod.mk.injEq] at hi
        rw [← hi.1]
        exact this
      · simp only [Prod.mk.injEq] at hi
        rw [← hi.1]
        exact this

/-- The sections of a template that loaded without an exception. -/
theorem init_inv {H : Val → String} {fuel : Nat} {t conds : List (Key × Val)} {tb : CondTable}
    (ht : dlookup (Key.str "Conditions") t = some (.dict conds))
    (hi : Conditions.init H fuel (.dict t) = (tb, none)) :
    loadConds H (.dict t) fuel ((conds.map Prod.fst).map Key.toVal) [] = (tb.conds, none) ∧
    ((dlookup (Key.str "Parameters") t = none ∧ tb.params = []) ∨
     ∃ ps, dlookup (Key.str "Parameters") t = some (.dict ps) ∧ loadParams H ps [] = (tb.params, none)) := by
  unfold Conditions.init at hi
  simp only [getD_dict, ht, Option.getD_some, pyIterVal, toVal_keys] at hi
  rcases hl : loadConds H (.dict t) fuel ((conds.map Prod.fst).map Key.toVal) [] with ⟨cs, e'⟩
  rw [hl] at hi
  cases e' with
  | some x => simp at hi
  | none =>
    simp only at hi
    split at hi
    · next heq => cases heq
    · next ps heq =>
      simp only [Prod.mk.injEq] at hi
      obtain ⟨h1, h2⟩ := hi
      rw [← h1]
      refine ⟨rfl, ?_⟩
      simp only [Except.ok.injEq] at heq
      cases hp : dlookup (Key.str "Parameters") t with
      | none =>
        rw [hp] at heq
        simp only [Option.getD_none, Val.dict.injEq] at heq
        subst heq
        exact .inl ⟨rfl, rfl⟩
      | some w =>
        rw [hp] at heq
        simp only [Option.getD_some] at heq
        subst heq
        exact .inr ⟨ps, rfl, Prod.ext rfl h2⟩
    · simp at hi

/-- A loaded condition means what the template says. -/
theorem table_good {H : Val → String} {fuel : Nat} {t conds : List (Key × Val)} {tb : CondTable}
    {σ : Val → String} {τ : String → String}
    (ht : dlookup (Key.str "Conditions") t = some (.dict conds))
    (hi : Conditions.init H fuel (.dict t) = (tb, none)) {c : Key} {v : Val} {b : Bool}
    (hv : dlookup c conds = some v) (he : Evals OneSided conds σ v b)
    (hτ : ∀ e, Uses conds v e → τ (H e) = σ e) :
    ∃ o i, dlookup c tb.conds = some (o, i) ∧ GoodObj H conds τ v b o := by
  have hl := (init_inv ht hi).1
  have hm : c ∈ conds.map Prod.fst := List.mem_map.2 ⟨_, dlookup_mem hv, rfl⟩
  obtain ⟨r, hr, hd⟩ := (loadConds_ok _ _ _ hl c).1 hm
  rw [condByName_key c ht, hv] at hr
  simp only [Option.getD_some] at hr
  rcases hp : processCondition H (.dict t) fuel v with ⟨i, p⟩
  rw [hp] at hr
  rcases (parse_good ht he hτ fuel).1 with h | ⟨p', h, g⟩
  · rw [hp] at h
    simp only at h
    subst h
    simp [finishCondition] at hr
  · rw [hp] at h
    simp only at h
    subst h
    simp only [finishCondition, Except.ok.injEq] at hr
    subst hr
    exact ⟨_, _, hd, g⟩

theorem conditionsOf_some {t : List (Key × Val)} {c : Key} {v : Val}
    (h : dlookup c (conditionsOf t) = some v) :
    dlookup (Key.str "Conditions") t = some (.dict (conditionsOf t)) := by
  unfold conditionsOf at h ⊢
  split
  · next heq => exact heq
  · next hne =>
    split at h
    · next kvs heq => exact absurd heq (hne kvs)
    · simp [dlookup] at h

/-- the values of hashes that correspond to an assignment -/
noncomputable def hashVal (H : Val → String) (σ : Val → String) (h : String) : String :=
  open Classical in if hx : ∃ x, H x = h then σ hx.choose else ""

theorem hashVal_eq {H σ : Val → String} (hr : Respects H σ) (x : Val) : hashVal H σ (H x) = σ x := by
  unfold hashVal
  have hx : ∃ y, H y = H x := ⟨x, rfl⟩
  rw [dif_pos hx]
  exact hr _ _ hx.choose_spec

theorem is_infl {H : Val → String} {infl : Infl} {e : CEquals} {x : Val} {s : String}
    (h : e.Is H x s) (hc : Covered infl e) : InInfl infl (H x) s := by
  rcases h with ⟨h1, h2⟩ | ⟨h1, h2⟩
  · exact hc.1 (H x) (by rw [h1]) s (by rw [h2]; simp [EqV.other])
  · exact hc.2 (H x) (by rw [h2]) s (by rw [h1]; simp [EqV.other])

theorem is_text {H : Val → String} {e : CEquals} {x : Val} {s : String} (h : e.Is H x s)
    (hl : Sep H e.left) (hr : Sep H e.right) : ∀ y, H y ≠ s := by
  have key : ∀ v : EqV, v = { str := some s } → Sep H v → ∀ y, H y ≠ s := by
    rintro v rfl (⟨y, hy⟩ | ⟨s', hs, hn⟩)
    · simp at hy
    · simp only [EqV.mk.injEq, Option.some.injEq, true_and] at hs
      rw [hs]; exact hn
  rcases h with ⟨h1, h2⟩ | ⟨h1, h2⟩
  · exact key _ h2 hr
  · exact key _ h1 hl

theorem inInfl_mem {infl : Infl} {h x : String} (hi : InInfl infl h x) :
    ∃ sets, (h, sets) ∈ infl ∧ x ∈ sets := by
  unfold InInfl at hi
  cases hd : dlookup h infl with
  | none => rw [hd] at hi; simp at hi
  | some s => rw [hd] at hi; exact ⟨s, dlookup_mem hd, hi⟩

/-- A condition tested in a scenario whose values are indistinguishable from `τ`. -/
theorem good_test {H : Val → String} {conds : List (Key × Val)} {τ : String → String} {v : Val} {b : Bool}
    {o : CObj} {i infl : Infl} {sc : EqScenario} (g : GoodObj H conds τ v b o) (hok : CondOK H (o, i))
    (hsub : ∀ h x, InInfl i h x → InInfl infl h x) (hk : HashKeys H sc)
    (hv : ∀ h sets, (h, sets) ∈ infl → ∃ w, dlookup h sc = some w ∧ SameOn sets w (τ h)) :
    o.test sc = .ok (some b) := by
  rw [← g.ev]
  refine test_ev sc _ o ?_ g.complete
  intro e he
  obtain ⟨x, s, hu, his⟩ := g.eqs e he
  obtain ⟨hcov, hsl, hsr⟩ := hok.2 e he
  have hin := hsub _ _ (is_infl his hcov)
  obtain ⟨sets, hm, hs⟩ := inInfl_mem hin
  obtain ⟨w, hw, hsame⟩ := hv _ _ hm
  rw [is_test his (is_text his hsl hsr) hk hw]
  have h2 := hsame s hs
  have : e.holds τ = (τ (H x) == s) := by
    rcases his with ⟨h1, h2⟩ | ⟨h1, h2⟩
    · simp [CEquals.holds, h1, h2, EqV.val]
    · simp [CEquals.holds, h1, h2, EqV.val, BEq.comm (a := s)]
  rw [this]
  simp only [Option.some.injEq]
  rw [Bool.eq_iff_iff, beq_iff_eq, beq_iff_eq]
  exact h2

/-- A loaded condition tested in a scenario that gives the expressions it uses the values of `σ`. -/
theorem good_test' {H : Val → String} {conds : List (Key × Val)} {τ : String → String} {v : Val} {b : Bool}
    {o : CObj} {i : Infl} {sc : EqScenario} (g : GoodObj H conds τ v b o) (hok : CondOK H (o, i))
    (hk : HashKeys H sc) (hv : ∀ x, Uses conds v x → dlookup (H x) sc = some (τ (H x))) :
    o.test sc = .ok (some b) := by
  rw [← g.ev]
  refine test_ev sc _ o ?_ g.complete
  intro e he
  obtain ⟨x, s, hu, his⟩ := g.eqs e he
  obtain ⟨hcov, hsl, hsr⟩ := hok.2 e he
  rw [is_test his (is_text his hsl hsr) hk (hv x hu)]
  have : e.holds τ = (τ (H x) == s) := by
    rcases his with ⟨h1, h2⟩ | ⟨h1, h2⟩
    · simp [CEquals.holds, h1, h2, EqV.val]
    · simp [CEquals.holds, h1, h2, EqV.val, BEq.comm (a := s)]
  rw [this]

theorem allowedTexts_lit {vals : List Val} {s : String} {v : Val} (hv : v ∈ vals) (hp : PlainLit v)
    (hl : litText v = some s) : s ∈ allowedTexts vals := by
  unfold allowedTexts
  rw [List.mem_filterMap]
  refine ⟨v, hv, ?_⟩
  cases v with
  | str t => simpa [litText] using hl
  | int i => simpa [litText, pyStr] using hl
  | _ => exact absurd hp (by simp [PlainLit])

theorem allowedTexts_inv {vals : List Val} {s : String} (hp : ∀ v ∈ vals, PlainLit v)
    (h : s ∈ allowedTexts vals) : ∃ v ∈ vals, litText v = some s := by
  unfold allowedTexts at h
  rw [List.mem_filterMap] at h
  obtain ⟨v, hv, h⟩ := h
  refine ⟨v, hv, ?_⟩
  have := hp v hv
  cases v with
  | str t => simpa [litText] using h
  | int i => simpa [litText, pyStr] using h
  | _ => exact absurd this (by simp [PlainLit])

theorem params_nodup {t ps : List (Key × Val)} (hw : (Val.dict t).WF)
    (hp : dlookup (Key.str "Parameters") t = some (.dict ps)) : (ps.map Prod.fst).Nodup := by
  rw [Val.WF] at hw
  have := wfDict_mem_cond hw.2 (dlookup_mem hp)
  simp only [Val.WF] at this
  exact this.1

/-- Loaded allowed values come from a parameter. -/
theorem params_sound {H : Val → String} {fuel : Nat} {t conds : List (Key × Val)} {tb : CondTable}
    (hw : (Val.dict t).WF) (ht : dlookup (Key.str "Conditions") t = some (.dict conds))
    (hi : Conditions.init H fuel (.dict t) = (tb, none)) {h : String} {vals : List Val}
    (hl : dlookup h tb.params = some vals) : ∃ p, h = H (refTo p) ∧ Allows t p vals := by
  rcases (init_inv ht hi).2 with ⟨_, h0⟩ | ⟨ps, hp, hlp⟩
  · rw [h0] at hl; simp [dlookup] at hl
  · rcases loadParams_sound ps [] _ (params_nodup hw hp) hlp h vals hl with h' | ⟨p, body, h1, h2, h3⟩
    · simp [dlookup] at h'
    · exact ⟨p, h1, ps, body, hp, h2, h3⟩

theorem params_complete {H : Val → String} {fuel : Nat} {t conds : List (Key × Val)} {tb : CondTable}
    (ht : dlookup (Key.str "Conditions") t = some (.dict conds))
    (hi : Conditions.init H fuel (.dict t) = (tb, none)) {p : Key} {vals : List Val}
    (ha : Allows t p vals) : ∃ vals', dlookup (H (refTo p)) tb.params = some vals' := by
  obtain ⟨ps, body, h1, h2, h3⟩ := ha
  rcases (init_inv ht hi).2 with ⟨h0, _⟩ | ⟨ps', hp, hlp⟩
  · rw [h0] at h1; cases h1
  · rw [h1] at hp
    simp only [Option.some.injEq, Val.dict.injEq] at hp
    subst hp
    exact Option.isSome_iff_exists.1 ((loadParams_complete ps [] _ hlp).2 p body vals (dlookup_mem h2) h3)

theorem allows_unique {t : List (Key × Val)} {p : Key} {a b : List Val} (ha : Allows t p a)
    (hb : Allows t p b) : a = b := by
  obtain ⟨ps, body, h1, h2, h3⟩ := ha
  obtain ⟨ps', body', h1', h2', h3'⟩ := hb
  rw [h1] at h1'
  simp only [Option.some.injEq, Val.dict.injEq] at h1'
  subst h1'
  rw [h2] at h2'
  simp only [Option.some.injEq, Val.dict.injEq] at h2'
  subst h2'
  rw [h3] at h3'
  simpa using h3'

theorem conds_ne_nil {tb : CondTable} {c : Key} {r : CObj × Infl} (h : dlookup c tb.conds = some r) :
    tb.conds.isEmpty = false := by
  cases hc : tb.conds with
  | nil => rw [hc] at h; simp [dlookup] at h
  | cons a as => rfl

end CfnLint
