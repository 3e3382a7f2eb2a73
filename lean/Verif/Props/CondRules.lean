import Verif.Lemmas.CondRules
import Mathlib.Data.List.Nodup
/-
Properties C53 and C54: unused and undefined conditions.
-/
namespace CfnLint
open Spec

/-! ## C53 -/

/-- The full C53 statement: rule W8001 ends normally and reports exactly the defined conditions that are
used nowhere, each once, at its definition. -/
def C53_statement : Prop :=
  ∀ t : Val, t.WF → (∃ top, t = .dict top) → ∃ out, unusedConditions t (.dict []) = .ok out ∧
    (out.map Prod.fst).Nodup ∧
    ∀ p k, (p, k) ∈ out ↔ ∃ c, k = .str c ∧ p = [.str "Conditions", k] ∧ DefinesCond t c ∧ ¬ ∃ q, UsesCond t c q

theorem ifUse_str {f : Path × Val} {l : List Val} (h : ifUse f = .ok l) {c rest}
    (hf : f.2 = .list (.str c :: rest)) : l = [.str c] := by
  unfold ifUse at h
  rw [hf] at h
  simp only [Except.ok.injEq] at h
  exact h.symm

/-- the conditions used, in a template of the right shape -/
theorem usedConditions_spec {t : Val} (hw : t.WF) (hs : CondShape t) :
    ∃ uses, usedConditions t (.dict []) = .ok uses ∧ ∀ c, Val.str c ∈ uses ↔ ∃ q, UsesCond t c q := by
  have hsearch := fun p v => (C27_search_partial "Fn::If" t hw).1 p v
  have hshape : ∀ f ∈ searchDeepKeys "Fn::If" t (.dict []), ∃ c rest, f.2 = .list (.str c :: rest) := by
    rintro ⟨p, v⟩ hf
    obtain ⟨ha, q, rfl⟩ := (hsearch p v).1 hf
    exact hs.ifs q v ha
  obtain ⟨ifs, hifs⟩ : ∃ r, collectM ifUse (searchDeepKeys "Fn::If" t (.dict [])) = .ok r := by
    refine collectM_ok fun f hf => ?_
    obtain ⟨c, rest, h⟩ := hshape f hf
    exact ⟨_, by unfold ifUse; rw [h]⟩
  obtain ⟨os, ho, hoo, hoc⟩ := outputs_cond hw hs
  have huse : ∀ k o, (k, Val.dict o) ∈ os → outputUse (k, .dict o) = .ok
      (match dlookup (Key.str "Condition") o with
        | some c => [c]
        | none => []) := by
    intro k o _
    unfold outputUse
    simp only [pyIn, dhas, Val.subscript]
    cases dlookup (Key.str "Condition") o <;> simp
  obtain ⟨outs, houts⟩ : ∃ r, collectM outputUse os = .ok r := by
    refine collectM_ok fun f hf => ?_
    obtain ⟨k, w⟩ := f
    obtain ⟨o, rfl, _⟩ := hoo k w hf
    exact ⟨_, huse k o hf⟩
  refine ⟨ifs ++ conditionRefs t (.dict []) ++ resourceConditions t ++ outs, ?_, ?_⟩
  · unfold usedConditions
    rw [hifs, ho]
    simp only [bind, Except.bind, houts]
  · intro c
    simp only [List.mem_append]
    have h1 : Val.str c ∈ ifs ↔ ∃ p, At t (p ++ [.str "Fn::If", .int 0]) (.str c) := by
      rw [mem_collectM hifs]
      constructor
      · rintro ⟨⟨p, v⟩, hf, l, hl, hm⟩
        obtain ⟨c', rest, hv⟩ := hshape _ hf
        rw [ifUse_str hl hv] at hm
        simp only [List.mem_singleton, Val.str.injEq] at hm
        subst hm
        obtain ⟨ha, q, rfl⟩ := (hsearch p v).1 hf
        dsimp only at hv
        subst hv
        exact ⟨q, (if_cond hs).2 ⟨rest, ha⟩⟩
      · rintro ⟨p, h⟩
        obtain ⟨rest, h⟩ := (if_cond hs).1 h
        exact ⟨(p ++ [.str "Fn::If"], .list (.str c :: rest)), (hsearch _ _).2 ⟨h, p, rfl⟩, [.str c], rfl,
          List.mem_singleton.2 rfl⟩
    have h2 : Val.str c ∈ conditionRefs t (.dict []) ↔
        ∃ p, At t (.str "Conditions" :: p ++ [.str "Condition"]) (.str c) := by
      rw [← mem_conditionRefs hw]
      unfold conditionRefs
      rw [List.mem_filterMap]
      refine exists_congr fun f => and_congr_right fun _ => ?_
      cases f.2 <;> simp
    have h3 : Val.str c ∈ resourceConditions t ↔ ∃ r, At t [.str "Resources", r, .str "Condition"] (.str c) := by
      unfold resourceConditions
      simp only [List.mem_filterMap, Prod.exists, ← resource_cond hw hs]
    have h4 : Val.str c ∈ outs ↔ ∃ o, At t [.str "Outputs", o, .str "Condition"] (.str c) := by
      rw [mem_collectM houts]
      simp only [hoc, Prod.exists]
      constructor
      · rintro ⟨k, w, hf, l, hl, hm⟩
        obtain ⟨o, rfl, _⟩ := hoo k w hf
        rw [huse k o hf] at hl
        cases hd : dlookup (Key.str "Condition") o with
        | none => rw [hd] at hl; cases hl; cases hm
        | some x =>
          rw [hd] at hl
          cases hl
          simp only [List.mem_singleton] at hm
          exact ⟨k, o, hf, hm ▸ hd⟩
      · rintro ⟨k, o, hf, hd⟩
        exact ⟨k, .dict o, hf, [.str c], by rw [huse k o hf, hd], List.mem_singleton.2 rfl⟩
    rw [h1, h2, h3, h4]
    constructor
    · rintro (((⟨p, h⟩ | ⟨p, h⟩) | ⟨r, h⟩) | ⟨o, h⟩)
      · exact ⟨_, .fnIf h⟩
      · exact ⟨_, .cond h⟩
      · exact ⟨_, .resource h⟩
      · exact ⟨_, .output h⟩
    · rintro ⟨q, h⟩
      cases h with
      | fnIf h => exact .inl (.inl (.inl ⟨_, h⟩))
      | cond h => exact .inl (.inl (.inr ⟨_, h⟩))
      | resource h => exact .inl (.inr ⟨_, h⟩)
      | output h => exact .inr ⟨_, h⟩

theorem toKey_str (u : Val) (c : String) : toKey u = some (.str c) ↔ u = .str c := by
  cases u <;> simp [toKey]

/-- the conditions defined -/
theorem conditions_section {t : Val} (hw : t.WF) (hs : CondShape t) :
    ∃ cs, t.getD "Conditions" (.dict []) = .ok (.dict cs) ∧ (cs.map Prod.fst).Nodup ∧
      (∀ k w, (k, w) ∈ cs → ∃ s, k = .str s) ∧ ∀ c, DefinesCond t c ↔ ∃ w, (Key.str c, w) ∈ cs := by
  obtain ⟨top, rfl⟩ := hs.top
  unfold Val.getD
  dsimp only
  cases hl : dlookup (Key.str "Conditions") top with
  | none =>
    refine ⟨[], rfl, by simp, by simp, ?_⟩
    intro c
    simp only [List.not_mem_nil, exists_false, iff_false]
    rintro ⟨v, h⟩
    have h' : At (.dict top) ([.str "Conditions"] ++ [.str c]) v := h
    obtain ⟨u, h1, _⟩ := at_split h'
    rw [at_obj hw, hl] at h1
    cases h1
  | some v =>
    obtain ⟨cs, rfl, hk⟩ := hs.conditions v ((at_obj hw).2 hl)
    have hwc : (Val.dict cs).WF := at_wf ((at_obj hw).2 hl) hw
    refine ⟨cs, rfl, hwc.1, hk, ?_⟩
    intro c
    constructor
    · rintro ⟨v, h⟩
      have h' : At (.dict top) ([.str "Conditions"] ++ [.str c]) v := h
      obtain ⟨u, h1, h2⟩ := at_split h'
      rw [at_obj hw, hl] at h1
      cases h1
      exact ⟨v, at_dict_one.1 h2⟩
    · rintro ⟨w, hm⟩
      exact ⟨w, .key (dlookup_mem hl) (.key hm .here)⟩

/-- C53, for templates whose uses of conditions have the right shape: W8001 reports exactly the unused
conditions. Missing for the full claim: templates with malformed uses, see the counterexamples. -/
theorem C53_exact_partial (t : Val) (hw : t.WF) (hs : CondShape t) :
    ∃ out, unusedConditions t (.dict []) = .ok out ∧ (out.map Prod.fst).Nodup ∧
      ∀ p k, (p, k) ∈ out ↔
        ∃ c, k = .str c ∧ p = [.str "Conditions", k] ∧ DefinesCond t c ∧ ¬ ∃ q, UsesCond t c q := by
  obtain ⟨cs, hc, hn, hk, hd⟩ := conditions_section hw hs
  obtain ⟨uses, hu, hm⟩ := usedConditions_spec hw hs
  unfold unusedConditions
  rw [hc]
  dsimp only
  by_cases ht : (Val.dict cs).truthy = true
  · rw [if_pos ht, hu]
    refine ⟨_, rfl, ?_, ?_⟩
    · rw [List.map_map]
      have : (Prod.fst ∘ fun c : Key × Val => ([Key.str "Conditions", c.1], c.1)) =
          (fun k => [Key.str "Conditions", k]) ∘ Prod.fst := rfl
      rw [this, ← List.map_map]
      refine List.Nodup.map ?_ ?_
      · intro a b h; simpa using h
      · exact hn.sublist (List.Sublist.map _ List.filter_sublist)
    · intro p k
      simp only [List.mem_map, List.mem_filter, List.all_eq_true, bne_iff_ne, Prod.exists, Prod.mk.injEq]
      constructor
      · rintro ⟨k', w, ⟨hmem, hall⟩, rfl, rfl⟩
        obtain ⟨c, rfl⟩ := hk k' w hmem
        refine ⟨c, rfl, rfl, (hd c).2 ⟨w, hmem⟩, ?_⟩
        rw [← hm]
        exact fun h => hall _ h rfl
      · rintro ⟨c, rfl, rfl, hdef, hno⟩
        obtain ⟨w, hmem⟩ := (hd c).1 hdef
        refine ⟨_, w, ⟨hmem, ?_⟩, rfl, rfl⟩
        intro u hu' he
        rw [toKey_str] at he
        subst he
        exact hno ((hm c).1 hu')
  · rw [if_neg ht]
    have : cs = [] := by
      cases cs with
      | nil => rfl
      | cons a l => exact absurd rfl ht
    subst this
    refine ⟨[], rfl, by simp, ?_⟩
    intro p k
    simp only [List.not_mem_nil, false_iff]
    rintro ⟨c, _, _, hdef, _⟩
    obtain ⟨w, h⟩ := (hd c).1 hdef
    cases h

/-- C53 does not hold: an `Fn::If` with an empty list makes the rule raise. -/
theorem C53_empty_if_violated : ¬ C53_statement := by
  intro h
  obtain ⟨out, ho, _⟩ := h (.dict [(.str "Conditions", .dict [(.str "C", .bool true)]),
    (.str "Metadata", .dict [(.str "Fn::If", .list [])])])
    (by simp [Val.WF, Val.WFDict, Val.WFList]) ⟨_, rfl⟩
  exact absurd ho (by rw [show unusedConditions _ _ = .error (.indexError "list index out of range") from by decide]; simp)

/-- a template in which the condition is used by a resource that has no type -/
def untypedUse : Val :=
  .dict [(.str "Conditions", .dict [(.str "C", .bool true)]),
    (.str "Resources", .dict [(.str "R", .dict [(.str "Condition", .str "C")])])]

/-- C53 does not hold: a condition used by a resource without a type is reported as unused. -/
theorem C53_untyped_violated : ¬ C53_statement := by
  intro h
  obtain ⟨out, ho, _, hm⟩ := h untypedUse (by simp [untypedUse, Val.WF, Val.WFDict]) ⟨_, rfl⟩
  have : unusedConditions untypedUse (.dict []) = .ok [([.str "Conditions", .str "C"], .str "C")] := by decide
  rw [this] at ho
  cases ho
  obtain ⟨c, hc, _, _, hno⟩ := (hm _ _).1 List.mem_cons_self
  cases hc
  exact hno ⟨_, .resource (r := .str "R") (.key (List.mem_cons_of_mem _ List.mem_cons_self)
    (.key List.mem_cons_self (.key List.mem_cons_self .here)))⟩

-- the hypotheses are met: two conditions, one used by an output
def condExample : Val :=
  .dict [(.str "Conditions", .dict [(.str "C", .bool true), (.str "D", .bool true)]),
    (.str "Outputs", .dict [(.str "O", .dict [(.str "Condition", .str "C")])])]

example : unusedConditions condExample (.dict []) = .ok [([.str "Conditions", .str "D"], .str "D")] := by
  decide

theorem condExample_shape : CondShape condExample := by
  refine ⟨⟨_, rfl⟩, ?_, ?_, ?_, ?_, ?_⟩
  · intro p v h
    have hm := ((C27_search_partial "Fn::If" condExample
      (by simp [condExample, Val.WF, Val.WFDict])).1 _ _).2 ⟨h, p, rfl⟩
    have : searchDeepKeys "Fn::If" condExample (.dict []) = [] := by decide
    rw [this] at hm
    cases hm
  · intro v h
    unfold condExample at h
    rw [at_dict_one] at h
    simp only [List.mem_cons, Prod.mk.injEq, true_and, List.not_mem_nil, or_false] at h
    rcases h with rfl | ⟨h, _⟩
    · exact ⟨_, rfl, by rintro k w hm; simp at hm; rcases hm with ⟨rfl, _⟩ | ⟨rfl, _⟩ <;> exact ⟨_, rfl⟩⟩
    · simp at h
  · intro v h
    unfold condExample at h
    rw [at_dict_one] at h
    simp at h
  · intro r v h _
    have h' : At condExample ([.str "Resources"] ++ [r]) v := h
    obtain ⟨u, h1, _⟩ := at_split h'
    unfold condExample at h1
    rw [at_dict_one] at h1
    simp at h1
  · intro v h
    unfold condExample at h
    rw [at_dict_one] at h
    simp only [List.mem_cons, Prod.mk.injEq, true_and, List.not_mem_nil, or_false] at h
    rcases h with ⟨h, _⟩ | rfl
    · simp at h
    · refine ⟨_, rfl, ?_⟩
      intro k w hm
      simp only [List.mem_singleton, Prod.mk.injEq] at hm
      refine ⟨_, hm.2, ?_⟩
      simp

/-! ## C54 -/

/-- The full C54 statement: rule E8002 ends normally and reports, for every use of a condition that is not
defined, the place of the use, and nothing else. The place of a use as the condition of an `Fn::If` is the
function. -/
def C54_statement : Prop :=
  ∀ t : Val, t.WF → CondShape t → ∃ out, undefinedConditions t (.dict []) = .ok out ∧
    (∀ c q, UsesCond t c q → ¬ DefinesCond t c → ∃ p, (p, Key.str c) ∈ out ∧ p <+: q ∧ q.length ≤ p.length + 1) ∧
    ∀ p k, (p, k) ∈ out → ∃ c q, k = .str c ∧ UsesCond t c q ∧ ¬ DefinesCond t c ∧ p <+: q

/-- all demands, before later ones replace earlier ones -/
def demandList (ifs outs : List (Key × Path)) (t : Val) : List (Key × Path) :=
  ifs ++ resourceDemand t ++ conditionDemand t (.dict []) ++ outs

theorem mem_dset_path {k : Key} {p : Path} : ∀ {d : List (Key × Path)} {kp : Key × Path},
    kp ∈ dset k p d → kp = (k, p) ∨ kp ∈ d
  | [], kp, h => by simpa [dset] using h
  | (k', p') :: d, kp, h => by
    simp only [dset] at h
    split at h
    · rename_i hk
      rcases List.mem_cons.1 h with rfl | h
      · exact .inl (by rw [hk])
      · exact .inr (List.mem_cons_of_mem _ h)
    · rcases List.mem_cons.1 h with rfl | h
      · exact .inr List.mem_cons_self
      · rcases mem_dset_path h with h | h
        · exact .inl h
        · exact .inr (List.mem_cons_of_mem _ h)

theorem mem_dset_key {k k' : Key} {p : Path} {d : List (Key × Path)} :
    (∃ q, (k', q) ∈ dset k p d) ↔ k' = k ∨ ∃ q, (k', q) ∈ d := by
  have key : ∀ e : List (Key × Path), (∃ q, (k', q) ∈ e) ↔ dlookup k' e ≠ none := by
    intro e
    constructor
    · rintro ⟨q, hq⟩ hn
      rw [dlookup_none_iff] at hn
      exact hn (List.mem_map.2 ⟨_, hq, rfl⟩)
    · intro h
      cases hd : dlookup k' e with
      | none => exact absurd hd h
      | some q => exact ⟨q, dlookup_mem hd⟩
  rw [key, key, dlookup_dset]
  split
  · rename_i h; subst h; simp
  · rename_i h
    have h' : k' ≠ k := fun e => h e.symm
    simp [h']

theorem foldl_dset_keys : ∀ (l d : List (Key × Path)), (d.map Prod.fst).Nodup →
    ((l.foldl (fun d kp => dset kp.1 kp.2 d) d).map Prod.fst).Nodup ∧
    (∀ k, (∃ p, (k, p) ∈ l.foldl (fun d kp => dset kp.1 kp.2 d) d) ↔ (∃ p, (k, p) ∈ l) ∨ ∃ p, (k, p) ∈ d) ∧
    (∀ kp ∈ l.foldl (fun d kp => dset kp.1 kp.2 d) d, kp ∈ l ∨ kp ∈ d)
  | [], d, h => ⟨h, by simp, by simp⟩
  | (k0, p0) :: l, d, h => by
    obtain ⟨h1, h2, h3⟩ := foldl_dset_keys l (dset k0 p0 d) (dset_nodup k0 p0 h)
    refine ⟨h1, ?_, ?_⟩
    · intro k
      rw [List.foldl_cons, h2, mem_dset_key]
      simp only [List.mem_cons, Prod.mk.injEq]
      constructor
      · rintro (⟨p, hp⟩ | rfl | ⟨p, hp⟩)
        · exact .inl ⟨p, .inr hp⟩
        · exact .inl ⟨p0, .inl ⟨rfl, rfl⟩⟩
        · exact .inr ⟨p, hp⟩
      · rintro (⟨p, ⟨rfl, rfl⟩ | hp⟩ | ⟨p, hp⟩)
        · exact .inr (.inl rfl)
        · exact .inl ⟨p, hp⟩
        · exact .inr (.inr ⟨p, hp⟩)
    · intro kp hkp
      rcases h3 kp hkp with h | h
      · exact .inl (List.mem_cons_of_mem _ h)
      · rcases mem_dset_path h with rfl | h
        · exact .inl List.mem_cons_self
        · exact .inr h

/-- the demands of a template of the right shape -/
theorem demanded_spec {t : Val} (hw : t.WF) (hs : CondShape t) :
    ∃ ds, demandedConditions t (.dict []) = .ok ds ∧ (ds.map Prod.fst).Nodup ∧
      (∀ c, (∃ p, (Key.str c, p) ∈ ds) ↔ ∃ q, UsesCond t c q) ∧
      (∀ k p, (k, p) ∈ ds → ∃ c q, k = .str c ∧ UsesCond t c q ∧
        (p <+: q ∨ p = [.str "Conditions", k] ∨ p = [.str "Outputs", k])) := by
  have hsearch := fun p v => (C27_search_partial "Fn::If" t hw).1 p v
  have hshape : ∀ f ∈ searchDeepKeys "Fn::If" t (.dict []), ∃ c rest, f.2 = .list (.str c :: rest) := by
    rintro ⟨p, v⟩ hf
    obtain ⟨ha, q, rfl⟩ := (hsearch p v).1 hf
    exact hs.ifs q v ha
  have hif : ∀ f c rest, f.2 = Val.list (.str c :: rest) → ifDemand f = .ok [(.str c, f.1)] := by
    intro f c rest h
    unfold ifDemand
    rw [h]
  obtain ⟨ifs, hifs⟩ : ∃ r, collectM ifDemand (searchDeepKeys "Fn::If" t (.dict [])) = .ok r := by
    refine collectM_ok fun f hf => ?_
    obtain ⟨c, rest, h⟩ := hshape f hf
    exact ⟨_, hif f c rest h⟩
  obtain ⟨os, ho, hoo, hoc⟩ := outputs_cond hw hs
  have huse : ∀ k o, (k, Val.dict o) ∈ os → outputDemand (k, .dict o) = .ok
      (match dlookup (Key.str "Condition") o with
        | some (.str c) => [(.str c, [.str "Outputs", .str c])]
        | _ => []) := by
    intro k o hm
    obtain ⟨o', he, _, hc⟩ := hoo k _ hm
    cases he
    unfold outputDemand
    simp only [pyIn, dhas, Val.subscript]
    cases hd : dlookup (Key.str "Condition") o with
    | none => simp
    | some x =>
      obtain ⟨s, rfl⟩ := hc x hd
      simp [toKey]
  obtain ⟨outs, houts⟩ : ∃ r, collectM outputDemand os = .ok r := by
    refine collectM_ok fun f hf => ?_
    obtain ⟨k, w⟩ := f
    obtain ⟨o, rfl, _⟩ := hoo k w hf
    exact ⟨_, huse k o hf⟩
  have hmem : ∀ k p, (k, p) ∈ demandList ifs outs t ↔
      (∃ c q, k = .str c ∧ At t (q ++ [.str "Fn::If", .int 0]) (.str c) ∧ p = q ++ [.str "Fn::If"]) ∨
      (∃ c r, k = .str c ∧ At t [.str "Resources", r, .str "Condition"] (.str c) ∧
        p = [.str "Resources", r, .str "Condition"]) ∨
      (∃ c q, k = .str c ∧ At t (.str "Conditions" :: q ++ [.str "Condition"]) (.str c) ∧
        p = [.str "Conditions", .str c]) ∨
      (∃ c o, k = .str c ∧ At t [.str "Outputs", o, .str "Condition"] (.str c) ∧
        p = [.str "Outputs", .str c]) := by
    intro k p
    unfold demandList
    simp only [List.mem_append]
    rw [mem_collectM hifs, mem_collectM houts, or_assoc, or_assoc]
    refine or_congr ?_ (or_congr ?_ (or_congr ?_ ?_))
    · constructor
      · rintro ⟨⟨p', v⟩, hf, l, hl, hm⟩
        obtain ⟨c', rest, hv⟩ := hshape _ hf
        rw [hif _ _ _ hv] at hl
        cases hl
        simp only [List.mem_singleton, Prod.mk.injEq] at hm
        obtain ⟨rfl, rfl⟩ := hm
        obtain ⟨ha, q, rfl⟩ := (hsearch p v).1 hf
        dsimp only at hv
        subst hv
        exact ⟨c', q, rfl, (if_cond hs).2 ⟨rest, ha⟩, rfl⟩
      · rintro ⟨c, q, rfl, h, rfl⟩
        obtain ⟨rest, h⟩ := (if_cond hs).1 h
        exact ⟨(q ++ [.str "Fn::If"], .list (.str c :: rest)), (hsearch _ _).2 ⟨h, q, rfl⟩,
          [(.str c, q ++ [.str "Fn::If"])], rfl, List.mem_singleton.2 rfl⟩
    · unfold resourceDemand
      simp only [List.mem_filterMap, Prod.exists, ← resource_cond hw hs]
      constructor
      · rintro ⟨r, o, hr, h⟩
        split at h
        · rename_i c hc
          simp only [Option.some.injEq, Prod.mk.injEq] at h
          obtain ⟨rfl, rfl⟩ := h
          exact ⟨c, r, rfl, ⟨o, hr, hc⟩, rfl⟩
        · cases h
      · rintro ⟨c, r, rfl, ⟨o, hr, hc⟩, rfl⟩
        exact ⟨r, o, hr, by rw [hc]⟩
    · unfold conditionDemand
      rw [List.mem_filterMap]
      constructor
      · rintro ⟨f, hf, h⟩
        cases hv : f.2 with
        | str c =>
          rw [hv] at h
          simp only [Option.some.injEq, Prod.mk.injEq] at h
          obtain ⟨rfl, rfl⟩ := h
          obtain ⟨q, hq⟩ := (mem_conditionRefs hw).1 ⟨f, hf, hv⟩
          exact ⟨c, q, rfl, hq, rfl⟩
        | _ => rw [hv] at h; cases h
      · rintro ⟨c, q, rfl, h, rfl⟩
        obtain ⟨f, hf, hv⟩ := (mem_conditionRefs hw).2 ⟨q, h⟩
        exact ⟨f, hf, by rw [hv]⟩
    · simp only [hoc, Prod.exists]
      constructor
      · rintro ⟨k', w, hf, l, hl, hm⟩
        obtain ⟨o, rfl, _, hc⟩ := hoo k' w hf
        rw [huse k' o hf] at hl
        cases hd : dlookup (Key.str "Condition") o with
        | none => rw [hd] at hl; cases hl; cases hm
        | some x =>
          obtain ⟨c, rfl⟩ := hc x hd
          rw [hd] at hl
          cases hl
          simp only [List.mem_singleton, Prod.mk.injEq] at hm
          exact ⟨c, k', hm.1, ⟨o, hf, hd⟩, hm.2⟩
      · rintro ⟨c, k', rfl, ⟨o, hf, hd⟩, rfl⟩
        exact ⟨k', .dict o, hf, [(.str c, [.str "Outputs", .str c])], by rw [huse k' o hf, hd],
          List.mem_singleton.2 rfl⟩
  obtain ⟨g1, g2, g3⟩ := foldl_dset_keys (demandList ifs outs t) [] (by simp)
  refine ⟨(demandList ifs outs t).foldl (fun d kp => dset kp.1 kp.2 d) [], ?_, g1, ?_, ?_⟩
  · unfold demandedConditions
    rw [hifs, ho]
    simp only [bind, Except.bind, houts]
    rfl
  · intro c
    rw [g2]
    simp only [List.not_mem_nil, exists_false, or_false, hmem]
    constructor
    · rintro ⟨p, ⟨c, q, hc, h, _⟩ | ⟨c, q, hc, h, _⟩ | ⟨c, q, hc, h, _⟩ | ⟨c, q, hc, h, _⟩⟩ <;> cases hc
      · exact ⟨_, .fnIf h⟩
      · exact ⟨_, .resource h⟩
      · exact ⟨_, .cond h⟩
      · exact ⟨_, .output h⟩
    · rintro ⟨q, h⟩
      cases h with
      | fnIf h => exact ⟨_, .inl ⟨_, _, rfl, h, rfl⟩⟩
      | cond h => exact ⟨_, .inr (.inr (.inl ⟨_, _, rfl, h, rfl⟩))⟩
      | resource h => exact ⟨_, .inr (.inl ⟨_, _, rfl, h, rfl⟩)⟩
      | output h => exact ⟨_, .inr (.inr (.inr ⟨_, _, rfl, h, rfl⟩))⟩
  · intro k p hkp
    rcases g3 _ hkp with h | h
    · rw [hmem] at h
      rcases h with ⟨c, q, rfl, h, rfl⟩ | ⟨c, q, rfl, h, rfl⟩ | ⟨c, q, rfl, h, rfl⟩ | ⟨c, q, rfl, h, rfl⟩
      · exact ⟨c, _, rfl, .fnIf h, .inl ⟨[.int 0], by simp⟩⟩
      · exact ⟨c, _, rfl, .resource h, .inl List.prefix_rfl⟩
      · exact ⟨c, _, rfl, .cond h, .inr (.inl rfl)⟩
      · exact ⟨c, _, rfl, .output h, .inr (.inr rfl)⟩
    · cases h

/-- C54, the names: E8002 reports exactly the conditions that are used but not defined, each once; the place
is a place of use of the condition, or, when the last use is in the `Conditions` or `Outputs` section, the
name of the condition in that section. Missing for the full claim: the places, see the counterexamples. -/
theorem C54_names_partial (t : Val) (hw : t.WF) (hs : CondShape t) :
    ∃ out, undefinedConditions t (.dict []) = .ok out ∧ (out.map Prod.snd).Nodup ∧
      (∀ c, (∃ p, (p, Key.str c) ∈ out) ↔ (∃ q, UsesCond t c q) ∧ ¬ DefinesCond t c) ∧
      (∀ p k, (p, k) ∈ out → ∃ c q, k = .str c ∧ UsesCond t c q ∧
        (p <+: q ∨ p = [.str "Conditions", k] ∨ p = [.str "Outputs", k])) := by
  obtain ⟨cs, hc, hn, hk, hd⟩ := conditions_section hw hs
  obtain ⟨ds, h1, h2, h3, h4⟩ := demanded_spec hw hs
  have hcol : ∀ ds : List (Key × Path), collectM (fun d => (memKey d.1 (.dict cs)).map
      (fun b => if b then [] else [(d.2, d.1)])) ds =
      .ok ((ds.filter (fun d => !dhas d.1 cs)).map (fun d => (d.2, d.1))) := by
    intro ds
    induction ds with
    | nil => rfl
    | cons d ds ih =>
      rw [collectM, ih]
      simp only [memKey, Except.map]
      cases hb : dhas d.1 cs <;> simp [hb]
  have hdef : ∀ c, dhas (Key.str c) cs = true ↔ DefinesCond t c := by
    intro c
    rw [hd]
    unfold dhas
    cases hl : dlookup (Key.str c) cs with
    | none =>
      simp only [Option.isSome_none, Bool.false_eq_true, false_iff]
      rintro ⟨w, hw⟩
      rw [dlookup_of_mem hn hw] at hl
      cases hl
    | some w => simp only [Option.isSome_some, true_iff]; exact ⟨w, dlookup_mem hl⟩
  unfold undefinedConditions
  rw [hc]
  dsimp only
  rw [h1]
  dsimp only
  rw [hcol]
  refine ⟨_, rfl, ?_, ?_, ?_⟩
  · rw [List.map_map]
    exact h2.sublist (List.Sublist.map _ List.filter_sublist)
  · intro c
    simp only [List.mem_map, List.mem_filter, Prod.exists, Prod.mk.injEq, Bool.not_eq_true', ← h3, ← hdef]
    constructor
    · rintro ⟨p, k, q, ⟨hm, hb⟩, rfl, rfl⟩
      exact ⟨⟨_, hm⟩, by simp [hb]⟩
    · rintro ⟨⟨q, hm⟩, hb⟩
      exact ⟨q, _, q, ⟨hm, by simpa using hb⟩, rfl, rfl⟩
  · intro p k hm
    simp only [List.mem_map, List.mem_filter, Prod.exists, Prod.mk.injEq] at hm
    obtain ⟨k', p', ⟨hm, _⟩, rfl, rfl⟩ := hm
    exact h4 _ _ hm

/-- an output whose condition is not defined -/
def outputUndefined : Val :=
  .dict [(.str "Outputs", .dict [(.str "O", .dict [(.str "Condition", .str "C")])])]

theorem outputUndefined_shape : CondShape outputUndefined := by
  refine ⟨⟨_, rfl⟩, ?_, ?_, ?_, ?_, ?_⟩
  · intro p v h
    have hm := ((C27_search_partial "Fn::If" outputUndefined
      (by simp [outputUndefined, Val.WF, Val.WFDict])).1 _ _).2 ⟨h, p, rfl⟩
    have : searchDeepKeys "Fn::If" outputUndefined (.dict []) = [] := by decide
    rw [this] at hm
    cases hm
  · intro v h
    unfold outputUndefined at h
    rw [at_dict_one] at h
    simp at h
  · intro v h
    unfold outputUndefined at h
    rw [at_dict_one] at h
    simp at h
  · intro r v h _
    have h' : At outputUndefined ([.str "Resources"] ++ [r]) v := h
    obtain ⟨u, h1, _⟩ := at_split h'
    unfold outputUndefined at h1
    rw [at_dict_one] at h1
    simp at h1
  · intro v h
    unfold outputUndefined at h
    rw [at_dict_one] at h
    simp only [List.mem_cons, Prod.mk.injEq, true_and, List.not_mem_nil, or_false] at h
    subst h
    refine ⟨_, rfl, ?_⟩
    intro k w hm
    simp only [List.mem_singleton, Prod.mk.injEq] at hm
    exact ⟨_, hm.2, by simp⟩

example : undefinedConditions outputUndefined (.dict []) = .ok [([.str "Outputs", .str "C"], .str "C")] := by
  decide

/-- C54 does not hold: the undefined condition of the output `O` is reported at the output named like the
condition, which need not exist. -/
theorem C54_place_violated : ¬ C54_statement := by
  intro h
  obtain ⟨out, ho, _, hm⟩ := h outputUndefined (by simp [outputUndefined, Val.WF, Val.WFDict])
    outputUndefined_shape
  have : undefinedConditions outputUndefined (.dict []) = .ok [([.str "Outputs", .str "C"], .str "C")] := by
    decide
  rw [this] at ho
  cases ho
  obtain ⟨c, q, hc, hu, _, hp⟩ := hm _ _ List.mem_cons_self
  cases hc
  have hat : At outputUndefined q (.str "C") := by cases hu <;> assumption
  obtain ⟨r, rfl⟩ := hp
  have h' : At outputUndefined ([.str "Outputs"] ++ ([.str "C"] ++ r)) (.str "C") := hat
  obtain ⟨u, h1, h2⟩ := at_split h'
  unfold outputUndefined at h1
  rw [at_dict_one] at h1
  simp only [List.mem_cons, Prod.mk.injEq, true_and, List.not_mem_nil, or_false] at h1
  subst h1
  obtain ⟨u, h1, _⟩ := at_split h2
  rw [at_dict_one] at h1
  simp at h1

/-- two resources whose condition is not defined -/
def twiceUndefined : Val :=
  .dict [(.str "Resources", .dict [
    (.str "A", .dict [(.str "Type", .str "T"), (.str "Condition", .str "C")]),
    (.str "B", .dict [(.str "Type", .str "T"), (.str "Condition", .str "C")])])]

theorem twiceUndefined_shape : CondShape twiceUndefined := by
  refine ⟨⟨_, rfl⟩, ?_, ?_, ?_, ?_, ?_⟩
  · intro p v h
    have hm := ((C27_search_partial "Fn::If" twiceUndefined
      (by simp [twiceUndefined, Val.WF, Val.WFDict])).1 _ _).2 ⟨h, p, rfl⟩
    have : searchDeepKeys "Fn::If" twiceUndefined (.dict []) = [] := by decide
    rw [this] at hm
    cases hm
  · intro v h
    unfold twiceUndefined at h
    rw [at_dict_one] at h
    simp at h
  · intro v h
    unfold twiceUndefined at h
    rw [at_dict_one] at h
    simp only [List.mem_cons, Prod.mk.injEq, true_and, List.not_mem_nil, or_false] at h
    exact ⟨_, h⟩
  · intro r v h _
    have h' : At twiceUndefined ([.str "Resources"] ++ [r]) v := h
    obtain ⟨u, h1, h2⟩ := at_split h'
    unfold twiceUndefined at h1
    rw [at_dict_one] at h1
    simp only [List.mem_cons, Prod.mk.injEq, true_and, List.not_mem_nil, or_false] at h1
    subst h1
    rw [at_dict_one] at h2
    simp only [List.mem_cons, Prod.mk.injEq, List.not_mem_nil, or_false] at h2
    rcases h2 with ⟨_, rfl⟩ | ⟨_, rfl⟩ <;>
      exact ⟨.str "T", .key List.mem_cons_self .here, by simp⟩
  · intro v h
    unfold twiceUndefined at h
    rw [at_dict_one] at h
    simp at h

example : undefinedConditions twiceUndefined (.dict []) =
    .ok [([.str "Resources", .str "B", .str "Condition"], .str "C")] := by decide

/-- C54 does not hold: of several uses of an undefined condition only the last one is reported. -/
theorem C54_each_use_violated : ¬ C54_statement := by
  intro h
  obtain ⟨out, ho, hm, _⟩ := h twiceUndefined (by simp [twiceUndefined, Val.WF, Val.WFDict])
    twiceUndefined_shape
  have : undefinedConditions twiceUndefined (.dict []) =
    .ok [([.str "Resources", .str "B", .str "Condition"], .str "C")] := by decide
  rw [this] at ho
  cases ho
  obtain ⟨p, hp, hpre, _⟩ := hm "C" _ (.resource (r := .str "A")
    (.key List.mem_cons_self (.key List.mem_cons_self (.key (List.mem_cons_of_mem _ List.mem_cons_self) .here))))
    (by
      rintro ⟨v, hv⟩
      have h' : At twiceUndefined ([.str "Conditions"] ++ [.str "C"]) v := hv
      obtain ⟨u, h1, _⟩ := at_split h'
      unfold twiceUndefined at h1
      rw [at_dict_one] at h1
      simp at h1)
  simp only [List.mem_singleton, Prod.mk.injEq, and_true] at hp
  subst hp
  revert hpre
  decide

end CfnLint
