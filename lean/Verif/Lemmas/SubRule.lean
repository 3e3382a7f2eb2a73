import Verif.Spec.SubRule
import Verif.Props.GetAtt
import Verif.Props.Sub
import Verif.Props.CondGrammar
/-
Lemmas about rule E1019.
-/
namespace CfnLint
open Spec

theorem intercalate_splitOn (l : List Char) : List.intercalate ['.'] (splitOn '.' l) = l := by
  induction l with
  | nil => rfl
  | cons x xs ih =>
    have hne := splitOn_ne_nil '.' xs
    unfold splitOn
    by_cases hx : x = '.'
    · rw [if_pos hx]
      match hs : splitOn '.' xs, hne with
      | y :: ys, _ =>
        rw [hs] at ih
        subst hx
        rw [← ih]
        simp [List.intercalate]
    · rw [if_neg hx]
      match hs : splitOn '.' xs, hne with
      | [y], _ =>
        rw [hs] at ih
        rw [← ih]
        simp [List.intercalate]
      | y :: z :: ys, _ =>
        rw [hs] at ih
        rw [← ih]
        simp [List.intercalate]

/-- the attribute `a` of the resource `r` is meant by `x` -/
def AttrHit (R A : String) (r : Key) (a : String × AttrDecl) : Prop :=
  r = .str R ∧ (a.1 = "*" ∨ a.1 = A ∨ (a.2.type = some "Map" ∧ (splitOn '.' A.toList).head? = some a.1.toList))

theorem subAttr_dotted {R A : String} (hR : '.' ∉ R.toList) (r : Key) (a : String × AttrDecl) :
    ∃ b ks, subAttr (R ++ "." ++ A) r a = .ok (b, ks) ∧ (b = true ↔ AttrHit R A r a) ∧
      ∀ k, k ∈ ks ↔ k = .list ∧ r = .str R ∧ a.1 ≠ "*" ∧ a.1 = A ∧ a.2.type = some "List" := by
  have e : (R ++ "." ++ A).toList = R.toList ++ '.' :: A.toList := by simp
  have hne := splitOn_ne_nil '.' A.toList
  unfold subAttr AttrHit
  rw [e, splitOn_append _ hR]
  simp only [String.ofList_toList, intercalate_splitOn]
  by_cases hr : r = .str R
  · rw [if_pos hr]
    by_cases h1 : a.1 = "*"
    · rw [if_pos h1]
      exact ⟨_, _, rfl, by simp [hr, h1], by simp [h1]⟩
    · rw [if_neg h1]
      by_cases h2 : a.1.toList = A.toList
      · rw [if_pos h2]
        have h3 : a.1 = A := String.toList_injective h2
        refine ⟨_, _, rfl, by simp [hr, h3], fun k => ?_⟩
        by_cases h4 : a.2.type = some "List"
        · simp [hr, h3, h4]
          exact fun _ => h3 ▸ h1
        · simp [h4]
      · rw [if_neg h2]
        have h3 : a.1 ≠ A := fun e => h2 (e ▸ rfl)
        match hs : splitOn '.' A.toList, hne with
        | p :: ps, _ =>
          refine ⟨_, _, rfl, ?_, by simp [h3]⟩
          simp only [decide_eq_true_eq, List.head?_cons, Option.some.injEq]
          constructor
          · rintro ⟨h4, h5⟩
            exact ⟨hr, .inr (.inr ⟨h5, h4.symm⟩)⟩
          · rintro ⟨_, h | h | ⟨h4, h5⟩⟩
            · exact absurd h h1
            · exact absurd h h3
            · exact ⟨h5.symm, h4⟩
  · rw [if_neg hr]
    exact ⟨_, _, rfl, by simp [hr], by simp [hr]⟩

theorem subAttr_plain {x : String} (hx : '.' ∉ x.toList) {r : Key} (hr : r ≠ .str x) (a : String × AttrDecl) :
    subAttr x r a = .ok (false, []) := by
  unfold subAttr
  rw [splitOn_plain hx]
  simp only [String.ofList_toList]
  rw [if_neg hr]

theorem subAttrLoop_spec (x : String) : ∀ l : List (Key × String × AttrDecl),
    (∀ ra ∈ l, ∃ b ks, subAttr x ra.1 ra.2 = .ok (b, ks)) →
    ∃ b ks, subAttrLoop (.str x) l = .ok (b, ks) ∧ (b = true ↔ ∃ ra ∈ l, ∃ ks', subAttr x ra.1 ra.2 = .ok (true, ks')) ∧
      ∀ k, k ∈ ks ↔ ∃ ra ∈ l, ∃ b' ks', subAttr x ra.1 ra.2 = .ok (b', ks') ∧ k ∈ ks' := by
  intro l
  induction l with
  | nil => intro _; exact ⟨false, [], rfl, by simp, by simp⟩
  | cons ra rest ih =>
    intro h
    obtain ⟨b, ks, h1⟩ := h ra List.mem_cons_self
    obtain ⟨b', ks', h2, h3, h4⟩ := ih (fun ra h' => h ra (List.mem_cons_of_mem _ h'))
    refine ⟨b || b', ks ++ ks', ?_, ?_, ?_⟩
    · unfold subAttrLoop
      simp only
      rw [h1]
      simp only
      rw [h2]
    · simp only [Bool.or_eq_true, List.mem_cons, exists_eq_or_imp, h1, h3]
      constructor
      · rintro (rfl | h)
        · exact .inl ⟨ks, rfl⟩
        · exact .inr h
      · rintro (⟨ks', e⟩ | h)
        · injection e with e
          injection e with e _
          exact .inl e
        · exact .inr h
    · intro k
      simp only [List.mem_append, List.mem_cons, exists_eq_or_imp, h1, h4]
      constructor
      · rintro (h | h)
        · exact .inl ⟨b, ks, rfl, h⟩
        · exact .inr h
      · rintro (⟨b', ks', e, h⟩ | h)
        · injection e with e
          injection e with _ e
          exact .inl (e ▸ h)
        · exact .inr h

theorem attrLoop_nodup (S : AttrSpecs) : ∀ (res : List (Key × Val)) (acc tab : AttrTable), (acc.map Prod.fst).Nodup →
    attrLoop S res acc = .ok tab → (tab.map Prod.fst).Nodup := by
  intro res
  induction res with
  | nil =>
    intro acc tab hn h
    rw [attrLoop] at h
    injection h with h
    exact h ▸ hn
  | cons kv rest ih =>
    obtain ⟨name, value⟩ := kv
    intro acc tab hn h
    rw [attrLoop] at h
    repeat' split at h
    all_goals first
      | (cases h; done)
      | exact ih _ _ hn h
      | exact ih _ _ (dset_nodup _ _ hn) h

theorem Spec.SubSections.sections {t : Val} (h : SubSections t) : PlainSections t :=
  ⟨h.wf, h.object, h.section_, h.resources, h.parameters⟩

/-- the table of attributes of a template -/
theorem validGetAtts_spec {S : AttrSpecs} {t : Val} (ht : PlainSections t) : ∃ tab, validGetAtts S t = .ok tab ∧
    ∀ R a, (Key.str R, a) ∈ tab.flatMap (fun r => r.2.map (fun a => (r.1, a))) ↔
      ∃ ty attrs, HasResource t R ty ∧ typeAttrs S ty = some attrs ∧ a ∈ attrs := by
  obtain ⟨hw, ⟨top, rfl⟩, hsec, hres, _⟩ := ht
  unfold validGetAtts resourcesOf Val.getD
  simp only
  have hHas : ∀ R ty, HasResource (.dict top) R ty ↔ ∃ res props, dlookup (Key.str "Resources") top = some (.dict res) ∧
      dlookup (Key.str R) res = some (.dict props) ∧ dlookup (Key.str "Type") props = some (.str ty) := by
    intro R ty
    constructor
    · rintro ⟨top', res', props, e, h1, h2, h3⟩
      cases e
      have hwr := at_wf (at_dict_one.2 h1) hw
      have hwp := at_wf (at_dict_one.2 h2) hwr
      exact ⟨res', props, dlookup_of_mem hw.1 h1, dlookup_of_mem hwr.1 h2, dlookup_of_mem hwp.1 h3⟩
    · rintro ⟨res, props, h1, h2, h3⟩
      exact ⟨top, res, props, rfl, dlookup_mem h1, dlookup_mem h2, dlookup_mem h3⟩
  cases hl : dlookup (Key.str "Resources") top with
  | none =>
    refine ⟨[], rfl, fun R a => ?_⟩
    simp only [List.flatMap_nil, List.not_mem_nil, false_iff]
    rintro ⟨ty, attrs, h, _⟩
    obtain ⟨res, _, h1, _⟩ := (hHas R ty).1 h
    rw [hl] at h1
    cases h1
  | some v =>
    have hat : At (.dict top) [.str "Resources"] v := (at_obj hw).2 hl
    obtain ⟨res, rfl⟩ := hsec v hat
    have hwr := at_wf hat hw
    obtain ⟨tab, htab, hlook⟩ := attrLoop_spec S res [] (by
      rintro ⟨k, v⟩ hkv
      exact hres k v (at_append hat (at_dict_one.2 hkv))) hwr.1
    have hnd := attrLoop_nodup S res [] tab (by simp) htab
    refine ⟨tab, by simp only [itemsOf]; exact htab, fun R a => ?_⟩
    simp only [List.mem_flatMap, List.mem_map, Prod.mk.injEq]
    constructor
    · rintro ⟨⟨r, attrs⟩, h1, a', h2, rfl, rfl⟩
      have h3 := hlook (.str R)
      rw [dlookup_of_mem hnd h1] at h3
      simp only [dlookup, Option.or_none] at h3
      obtain ⟨v, h4, h5⟩ := Option.bind_eq_some_iff.1 h3.symm
      obtain ⟨props, rfl⟩ := hres _ v (at_append hat (at_dict_one.2 (dlookup_mem h4)))
      simp only [entryAttrs] at h5
      split at h5
      · rename_i ty hty
        exact ⟨ty, attrs, (hHas R ty).2 ⟨res, props, hl, h4, hty⟩, h5, h2⟩
      · cases h5
    · rintro ⟨ty, attrs, h1, h2, h3⟩
      obtain ⟨res', props, h4, h5, h6⟩ := (hHas R ty).1 h1
      rw [hl] at h4
      injection h4 with h4
      injection h4 with h4
      subst h4
      have h7 := hlook (.str R)
      rw [h5] at h7
      simp only [Option.bind_some, entryAttrs, h6, h2, Option.some_or] at h7
      exact ⟨(.str R, attrs), dlookup_mem h7, a, h3, rfl, rfl⟩

theorem resourceNames_spec {t : Val} (ht : PlainSections t) : ∃ names, resourceNamesOf t = .ok names ∧
    ∀ k, k ∈ names ↔ ∃ v, At t [.str "Resources", k] v := by
  obtain ⟨hw, ⟨top, rfl⟩, hsec, _, _⟩ := ht
  unfold resourceNamesOf Val.getD
  simp only
  cases hl : dlookup (Key.str "Resources") top with
  | none =>
    refine ⟨[], rfl, fun k => ?_⟩
    simp only [List.not_mem_nil, false_iff]
    rintro ⟨v, hv⟩
    obtain ⟨u, h1, _⟩ := at_split (p := [.str "Resources"]) (q := [k]) hv
    rw [at_obj hw, hl] at h1
    cases h1
  | some v =>
    have hat : At (.dict top) [.str "Resources"] v := (at_obj hw).2 hl
    obtain ⟨res, rfl⟩ := hsec v hat
    refine ⟨_, rfl, fun k => ?_⟩
    rw [List.mem_map]
    constructor
    · rintro ⟨⟨k', v⟩, h, rfl⟩
      exact ⟨v, at_append hat (at_dict_one.2 h)⟩
    · rintro ⟨v, hv⟩
      obtain ⟨u, h1, h2⟩ := at_split (p := [.str "Resources"]) (q := [k]) hv
      rw [← at_det hw hat h1] at h2
      exact ⟨(k, v), at_dict_one.1 h2, rfl⟩

theorem parameterTypesOf_spec : ∀ ps : List (Key × Val), (∀ kv ∈ ps, ∃ kvs, kv.2 = .dict kvs) →
    ∃ l, parameterTypesOf ps = .ok l ∧ ∀ k, dlookup k l = (dlookup k ps).map (fun v =>
      match v with | .dict kvs => (dlookup (Key.str "Type") kvs).getD (.str "String") | v => v) := by
  intro ps
  induction ps with
  | nil => intro _; exact ⟨[], rfl, fun k => rfl⟩
  | cons kv rest ih =>
    obtain ⟨k, v⟩ := kv
    intro h
    obtain ⟨kvs, hv⟩ := h _ List.mem_cons_self
    dsimp only at hv
    subst hv
    obtain ⟨l, h1, h2⟩ := ih (fun kv hk => h kv (List.mem_cons_of_mem _ hk))
    unfold parameterTypesOf
    rw [h1]
    cases hl : dlookup (Key.str "Type") kvs with
    | none =>
      refine ⟨(k, .str "String") :: l, by simp [Val.getD, hl], fun k' => ?_⟩
      simp only [dlookup]
      split
      · simp [hl]
      · exact h2 k'
    | some w =>
      refine ⟨(k, w) :: l, by simp [Val.getD, hl], fun k' => ?_⟩
      simp only [dlookup]
      split
      · simp [hl]
      · exact h2 k'

/-- the types of the parameters of a template -/
theorem subParameterTypes_spec {t : Val} (ht : PlainSections t) : ∃ types, subParameterTypes t = .ok types ∧
    ∀ x, ((∃ v, At t [.str "Parameters", .str x] v) ↔ ∃ ty, dlookup (Key.str x) types = some ty) ∧
      ∀ ty, dlookup (Key.str x) types = some ty → (isListType ty = true ↔ ListParameter t x) := by
  obtain ⟨hw, ⟨top, rfl⟩, _, _, hpar⟩ := ht
  unfold subParameterTypes Val.getD
  simp only
  have hnone : (∀ v, ¬ At (.dict top) [.str "Parameters"] (.dict v)) → ∀ x : String,
      ((∃ v, At (.dict top) [.str "Parameters", .str x] v) ↔ ∃ ty, dlookup (Key.str x) ([] : List (Key × Val)) = some ty) ∧
      ∀ ty, dlookup (Key.str x) ([] : List (Key × Val)) = some ty → (isListType ty = true ↔ ListParameter (.dict top) x) := by
    intro hno x
    refine ⟨⟨?_, ?_⟩, ?_⟩
    · rintro ⟨v, hv⟩
      obtain ⟨u, h1, h2⟩ := at_split (p := [.str "Parameters"]) (q := [.str x]) hv
      cases h2 with
      | key hm _ => exact absurd h1 (hno _)
    · rintro ⟨ty, h⟩; cases h
    · intro ty h; cases h
  cases hl : dlookup (Key.str "Parameters") top with
  | none =>
    refine ⟨[], rfl, hnone ?_⟩
    intro v hv
    rw [at_obj hw, hl] at hv
    cases hv
  | some v =>
    have hat : At (.dict top) [.str "Parameters"] v := (at_obj hw).2 hl
    by_cases hd : ∃ ps, v = .dict ps
    · obtain ⟨ps, rfl⟩ := hd
      have hwp := at_wf hat hw
      have hin : ∀ {k v}, (k, v) ∈ ps → At (.dict top) [.str "Parameters", k] v := fun h => at_append hat (at_dict_one.2 h)
      have hout : ∀ {k v}, At (.dict top) [.str "Parameters", k] v → (k, v) ∈ ps := by
        intro k v h
        obtain ⟨u, h1, h2⟩ := at_split (p := [.str "Parameters"]) (q := [k]) h
        rw [← at_det hw hat h1] at h2
        exact at_dict_one.1 h2
      obtain ⟨l, h1, h2⟩ := parameterTypesOf_spec ps (by rintro ⟨k, v⟩ h; exact hpar k v (hin h))
      refine ⟨l, by simp only [Option.getD_some]; exact h1, fun x => ⟨?_, ?_⟩⟩
      · rw [h2]
        constructor
        · rintro ⟨v, hv⟩
          rw [dlookup_of_mem hwp.1 (hout hv)]
          exact ⟨_, rfl⟩
        · rintro ⟨ty, h⟩
          obtain ⟨v, h3, _⟩ := Option.map_eq_some_iff.1 h
          exact ⟨v, hin (dlookup_mem h3)⟩
      · intro ty h
        rw [h2] at h
        obtain ⟨v, h3, h4⟩ := Option.map_eq_some_iff.1 h
        have hv := hin (dlookup_mem h3)
        obtain ⟨kvs, rfl⟩ := hpar _ v hv
        have hwk := at_wf hv hw
        simp only at h4
        unfold ListParameter
        constructor
        · intro hty
          cases hl' : dlookup (Key.str "Type") kvs with
          | none =>
            rw [hl'] at h4
            subst h4
            exact absurd hty (by decide)
          | some w =>
            rw [hl'] at h4
            simp only [Option.getD_some] at h4
            subst h4
            cases w with
            | str s =>
              simp only [isListType, decide_eq_true_eq] at hty
              exact ⟨s, at_append (p := [.str "Parameters", .str x]) hv (at_dict_one.2 (dlookup_mem hl')), listType_iff.1 hty⟩
            | _ => cases hty
        · rintro ⟨s, h5, h6⟩
          obtain ⟨u, h7, h8⟩ := at_split (p := [.str "Parameters", .str x]) (q := [.str "Type"]) h5
          rw [← at_det hw hv h7] at h8
          rw [dlookup_of_mem hwk.1 (at_dict_one.1 h8)] at h4
          simp only [Option.getD_some] at h4
          subst h4
          simp only [isListType, decide_eq_true_eq]
          exact listType_iff.2 h6
    · refine ⟨[], ?_, hnone ?_⟩
      · cases v with
        | dict ps => exact absurd ⟨ps, rfl⟩ hd
        | _ => rfl
      · intro ps hv
        exact hd ⟨ps, at_det hw hat hv⟩

end CfnLint
