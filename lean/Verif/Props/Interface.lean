import Verif.Model.Interface
import Verif.Spec.Interface
import Verif.Lemmas.CondRules
import Verif.Lemmas.Finds
import Verif.Props.Relations
/-
C107: the interface of a template (E4001, W4001) and names of resources and parameters (E3007).
-/
namespace CfnLint
open Spec

theorem at_below {kvs : List (Key × Val)} (hw : (Val.dict kvs).WF) {k : Key} {p : Path} {w : Val} :
    At (.dict kvs) (k :: p) w ↔ ∃ v, dlookup k kvs = some v ∧ At v p w := by
  rw [at_cons]
  constructor
  · rintro ⟨c, h1, h2⟩; exact ⟨c, (at_obj hw).1 h1, h2⟩
  · rintro ⟨c, h1, h2⟩; exact ⟨c, (at_obj hw).2 h1, h2⟩

theorem at_index {xs : List Val} {i : Nat} {p : Path} {w : Val} : At (.list xs) (.int i :: p) w ↔ ∃ x, xs[i]? = some x ∧ At x p w := by
  constructor
  · intro h
    generalize hk : Key.int (i : Int) = k at h
    cases h with
    | idx hi h =>
      cases hk
      exact ⟨_, hi, h⟩
  · rintro ⟨x, h1, h2⟩; exact .idx h1 h2

theorem key_toVal_inj {k k' : Key} : k.toVal = k'.toVal ↔ k = k' := by
  cases k <;> cases k' <;> simp [Key.toVal]

theorem toKey_toVal (k : Key) : toKey k.toVal = some k := by cases k <;> rfl

/-- the entries of the interface -/
theorem interface_cases {t : Val} (hw : t.WF) (hs : InterfaceShape t) : (interfaceOf t = .ok none ∧ ∀ k p w, ¬ At t (facePath ++ k :: p) w) ∨
    ∃ kvs, interfaceOf t = .ok (some (.dict kvs)) ∧ (Val.dict kvs).WF ∧ ∀ k p w, At t (facePath ++ k :: p) w ↔ At (.dict kvs) (k :: p) w := by
  obtain ⟨top, rfl⟩ := hs.top
  unfold interfaceOf
  simp only [Val.getD]
  cases hm : dlookup (Key.str "Metadata") top with
  | none =>
    refine .inl ⟨by simp [Val.truthy], fun k p w h => ?_⟩
    obtain ⟨v, h1, -⟩ := (at_below hw).1 (show At (.dict top) (.str "Metadata" :: .str "AWS::CloudFormation::Interface" :: k :: p) w from h)
    rw [hm] at h1
    cases h1
  | some m =>
    have hat := (at_obj hw).2 hm
    obtain ⟨ms, rfl⟩ := hs.metadata m hat
    have hmw := at_wf hat hw
    have step : ∀ k p w, At (.dict top) (facePath ++ k :: p) w ↔ At (.dict ms) (.str "AWS::CloudFormation::Interface" :: k :: p) w := by
      intro k p w
      show At (.dict top) (.str "Metadata" :: .str "AWS::CloudFormation::Interface" :: k :: p) w ↔ _
      rw [at_below hw]
      constructor
      · rintro ⟨v, h1, h2⟩; rw [hm] at h1; cases h1; exact h2
      · intro h; exact ⟨_, hm, h⟩
    simp only [Option.getD_some, Val.truthy]
    cases ms with
    | nil =>
      refine .inl ⟨rfl, fun k p w h => ?_⟩
      obtain ⟨v, h1, -⟩ := (at_below hmw).1 ((step k p w).1 h)
      cases h1
    | cons a r =>
      right
      simp only [List.isEmpty_cons, Bool.not_false, ↓reduceIte]
      cases hi : dlookup (Key.str "AWS::CloudFormation::Interface") (a :: r) with
      | none =>
        refine ⟨[], rfl, ⟨by simp, trivial⟩, fun k p w => ?_⟩
        rw [step, at_below hmw, hi]
        constructor
        · rintro ⟨v, h1, -⟩; cases h1
        · intro h
          exact absurd (at_cons.1 h) (by rintro ⟨c, h1, -⟩; cases at_dict_one.1 h1)
      | some f =>
        have hf : At (.dict top) facePath f := .key (dlookup_mem hm) (.key (dlookup_mem hi) .here)
        obtain ⟨kvs, rfl⟩ := hs.face f hf
        refine ⟨kvs, rfl, at_wf hf hw, fun k p w => ?_⟩
        rw [step, at_below hmw, hi]
        constructor
        · rintro ⟨v, h1, h2⟩; cases h1; exact h2
        · intro h; exact ⟨_, rfl, h⟩

/-- C107: the findings of E4001 are the entries that the interface and its groups cannot have, at their places. -/
theorem C107_entries {t : Val} (hw : t.WF) (hs : InterfaceShape t) : ∃ l, interfaceRule t = .ok l ∧ ∀ p, p ∈ l ↔ StrayEntry t p := by
  unfold interfaceRule
  rcases interface_cases hw hs with ⟨h1, h2⟩ | ⟨kvs, h1, h2, h3⟩
  · rw [h1]
    refine ⟨[], rfl, fun p => ⟨fun h => (by cases h), ?_⟩⟩
    rintro (⟨k, v, h, rfl, -⟩ | ⟨i, k, v, h, rfl, -⟩)
    · exact absurd h (h2 _ _ _)
    · exact absurd h (h2 _ _ _)
  · simp only [h1]
    have hg : ∃ groups, (dlookup (Key.str "ParameterGroups") kvs).getD (.list []) = .list groups ∧
        ∀ (i : Nat) k v, At t (facePath ++ [.str "ParameterGroups", .int i, k]) v ↔ ∃ g, groups[i]? = some (.dict g) ∧ (k, v) ∈ g := by
      cases hd : dlookup (Key.str "ParameterGroups") kvs with
      | none =>
        refine ⟨[], rfl, fun i k v => ?_⟩
        rw [h3, at_below h2, hd]
        simp
      | some g =>
        have hgat : At t (facePath ++ [.str "ParameterGroups"]) g := (h3 _ _ _).2 ((at_obj h2).2 hd)
        obtain ⟨xs, rfl⟩ := hs.groups g hgat
        refine ⟨xs, rfl, fun i k v => ?_⟩
        rw [h3, at_below h2, hd]
        constructor
        · rintro ⟨_, e, h4⟩
          cases e
          obtain ⟨x, h5, h6⟩ := at_index.1 h4
          obtain ⟨g, rfl⟩ := hs.group i x ((h3 _ _ _).2 ((at_below h2).2 ⟨_, hd, at_index.2 ⟨x, h5, .here⟩⟩))
          exact ⟨g, h5, at_dict_one.1 h6⟩
        · rintro ⟨g, h5, h6⟩
          exact ⟨_, rfl, at_index.2 ⟨_, h5, at_dict_one.2 h6⟩⟩
    obtain ⟨groups, hge, hgat⟩ := hg
    have hdict : ∀ (i : Nat) x, groups[i]? = some x → ∃ g, x = .dict g := by
      intro i x hx
      cases hd : dlookup (Key.str "ParameterGroups") kvs with
      | none => rw [hd] at hge; cases hge; simp at hx
      | some v =>
        rw [hd] at hge
        cases hge
        exact hs.group i x ((h3 _ _ _).2 ((at_below h2).2 ⟨_, hd, at_index.2 ⟨x, hx, .here⟩⟩))
    simp only [hge, iterOf]
    obtain ⟨l, h4, h5⟩ := collectM_spec (as := groups.zipIdx) (f := groupKeys)
      (P := fun iv p => ∃ g k v, iv.1 = .dict g ∧ (k, v) ∈ g ∧ k ≠ .str "Label" ∧ k ≠ .str "Parameters" ∧ p = facePath ++ [.str "ParameterGroups", .int iv.2, k]) (by
        rintro ⟨x, i⟩ hm
        obtain ⟨g, rfl⟩ := hdict i x (List.mem_zipIdx_iff_getElem?.1 hm)
        refine ⟨_, rfl, fun p => ?_⟩
        simp only [List.mem_map, List.mem_filter]
        constructor
        · rintro ⟨_, ⟨⟨kv, hkv, rfl⟩, hn⟩, rfl⟩
          simp only [Bool.not_or, Bool.and_eq_true, Bool.not_eq_true', beq_eq_false_iff_ne] at hn
          refine ⟨g, kv.1, kv.2, rfl, hkv, fun e => hn.1 (by rw [e]; rfl), fun e => hn.2 (by rw [e]; rfl), ?_⟩
          rw [pathKey, toKey_toVal]
          rfl
        · rintro ⟨g', k, v, e, hkv, hn1, hn2, rfl⟩
          cases e
          refine ⟨k.toVal, ⟨⟨_, hkv, rfl⟩, ?_⟩, ?_⟩
          · simp only [Bool.not_or, Bool.and_eq_true, Bool.not_eq_true', beq_eq_false_iff_ne]
            exact ⟨fun e => hn1 (key_toVal_inj.1 e), fun e => hn2 (key_toVal_inj.1 e)⟩
          · rw [pathKey, toKey_toVal]
            rfl)
    rw [h4]
    refine ⟨_, rfl, fun p => ?_⟩
    rw [List.mem_append, h5]
    refine or_congr ?_ ?_
    · simp only [List.mem_map, List.mem_filter]
      constructor
      · rintro ⟨⟨k, v⟩, ⟨hkv, hn⟩, rfl⟩
        simp only [Bool.not_or, Bool.and_eq_true, Bool.not_eq_true', beq_eq_false_iff_ne] at hn
        exact ⟨k, v, (h3 _ _ _).2 (at_dict_one.2 hkv), rfl, hn.1, hn.2⟩
      · rintro ⟨k, v, hat, rfl, hn1, hn2⟩
        exact ⟨(k, v), ⟨at_dict_one.1 ((h3 _ _ _).1 hat), by simp [hn1, hn2]⟩, rfl⟩
    · constructor
      · rintro ⟨⟨x, i⟩, hm, g, k, v, e, hkv, hn1, hn2, rfl⟩
        cases e
        exact ⟨i, k, v, (hgat i k v).2 ⟨g, List.mem_zipIdx_iff_getElem?.1 hm, hkv⟩, rfl, hn1, hn2⟩
      · rintro ⟨i, k, v, hat, rfl, hn1, hn2⟩
        obtain ⟨g, hx, hkv⟩ := (hgat i k v).1 hat
        exact ⟨(.dict g, i), List.mem_zipIdx_iff_getElem?.2 hx, g, k, v, rfl, hkv, hn1, hn2, rfl⟩

theorem parameterNames_iff {t : Val} (hw : t.WF) (htop : ∃ kvs, t = .dict kvs) (hp : ∀ v, At t [.str "Parameters"] v → ∃ kvs, v = .dict kvs) :
    ∃ ks, parameterNames t = .ok ks ∧ ∀ v, (∃ k ∈ ks, v = k.toVal) ↔ NamesParameter t v := by
  obtain ⟨top, rfl⟩ := htop
  unfold parameterNames
  simp only [Val.getD]
  cases hd : dlookup (Key.str "Parameters") top with
  | none =>
    refine ⟨[], rfl, fun v => ⟨fun ⟨k, h, _⟩ => (by cases h), ?_⟩⟩
    rintro ⟨k, d, h, -⟩
    obtain ⟨v, h1, -⟩ := (at_below hw).1 h
    rw [hd] at h1
    cases h1
  | some ps =>
    obtain ⟨kvs, rfl⟩ := hp ps ((at_obj hw).2 hd)
    refine ⟨kvs.map Prod.fst, rfl, fun v => ?_⟩
    constructor
    · rintro ⟨k, hk, rfl⟩
      obtain ⟨⟨k, d⟩, hm, rfl⟩ := List.mem_map.1 hk
      exact ⟨k, d, (at_below hw).2 ⟨_, hd, at_dict_one.2 hm⟩, rfl⟩
    · rintro ⟨k, d, h, rfl⟩
      obtain ⟨v, h1, h2⟩ := (at_below hw).1 h
      rw [hd] at h1
      cases h1
      exact ⟨k, List.mem_map_of_mem (at_dict_one.1 h2), rfl⟩

/-- C107: the findings of W4001 are the names in groups and labels that are none of parameters, at their places. -/
theorem C107_names {t : Val} (hw : t.WF) (hs : InterfaceShape t) (hn : InterfaceNames t) : ∃ l, interfaceParams t = .ok l ∧ ∀ p, p ∈ l ↔ UnknownName t p := by
  obtain ⟨ks, hk, hks⟩ := parameterNames_iff hw hs.top hn.parameters
  have hnot : ∀ v, notAmong ks v = true ↔ ¬ NamesParameter t v := by
    intro v
    rw [← hks]
    unfold notAmong
    rw [Bool.not_eq_true', List.any_eq_false]
    constructor
    · rintro h ⟨k, hk, rfl⟩; exact h k hk (by simp)
    · intro h k hk e; exact h ⟨k, hk, by simpa using Eq.symm (by simpa using e)⟩
  unfold interfaceParams
  rw [hk]
  rcases interface_cases hw hs with ⟨h1, h2⟩ | ⟨kvs, h1, h2, h3⟩
  · simp only [h1]
    refine ⟨[], rfl, fun p => ⟨fun h => (by cases h), ?_⟩⟩
    rintro (⟨i, j, v, h, rfl, -⟩ | ⟨k, v, h, rfl, -⟩)
    · exact absurd h (h2 _ _ _)
    · exact absurd h (h2 _ _ _)
  · simp only [h1]
    have hgroups : ∃ groups, (dlookup (Key.str "ParameterGroups") kvs).getD (.list []) = .list groups ∧
        (∀ (i : Nat) x, groups[i]? = some x → ∃ g, x = .dict g ∧ (Val.dict g).WF ∧ ∀ ps, dlookup (Key.str "Parameters") g = some ps → ∃ xs, ps = .list xs) ∧
        ∀ (i j : Nat) v, At t (facePath ++ [.str "ParameterGroups", .int i, .str "Parameters", .int j]) v ↔
          ∃ g xs, groups[i]? = some (.dict g) ∧ dlookup (Key.str "Parameters") g = some (.list xs) ∧ xs[j]? = some v := by
      cases hd : dlookup (Key.str "ParameterGroups") kvs with
      | none =>
        refine ⟨[], rfl, by simp, fun i j v => ?_⟩
        rw [h3, at_below h2, hd]
        simp
      | some g =>
        have hgat : At t (facePath ++ [.str "ParameterGroups"]) g := (h3 _ _ _).2 ((at_obj h2).2 hd)
        obtain ⟨xs, rfl⟩ := hs.groups g hgat
        have hx : ∀ (i : Nat) x, xs[i]? = some x → ∃ g, x = .dict g ∧ (Val.dict g).WF ∧ ∀ ps, dlookup (Key.str "Parameters") g = some ps → ∃ xs, ps = .list xs := by
          intro i x hi
          have hat : At t (facePath ++ [.str "ParameterGroups", .int i]) x := (h3 _ _ _).2 ((at_below h2).2 ⟨_, hd, at_index.2 ⟨x, hi, .here⟩⟩)
          obtain ⟨g, rfl⟩ := hs.group i x hat
          refine ⟨g, rfl, at_wf hat hw, fun ps hps => hn.lists i ps ((h3 _ _ _).2 ((at_below h2).2 ⟨_, hd, at_index.2 ⟨_, hi, at_dict_one.2 (dlookup_mem hps)⟩⟩))⟩
        refine ⟨xs, rfl, hx, fun i j v => ?_⟩
        rw [h3, at_below h2, hd]
        constructor
        · rintro ⟨_, e, h4⟩
          cases e
          obtain ⟨x, h5, h6⟩ := at_index.1 h4
          obtain ⟨g, rfl, hgw, hps⟩ := hx i x h5
          obtain ⟨ps, h7, h8⟩ := (at_below hgw).1 h6
          obtain ⟨ys, rfl⟩ := hps ps h7
          obtain ⟨y, h9, h10⟩ := at_index.1 h8
          cases h10
          exact ⟨g, ys, h5, h7, h9⟩
        · rintro ⟨g, ys, h5, h6, h7⟩
          exact ⟨_, rfl, at_index.2 ⟨_, h5, .key (dlookup_mem h6) (at_index.2 ⟨_, h7, .here⟩)⟩⟩
    obtain ⟨groups, hge, hgd, hgat⟩ := hgroups
    simp only [hge]
    obtain ⟨l, h4, h5⟩ := collectM_spec (as := groups.zipIdx) (f := groupParams ks)
      (P := fun iv p => ∃ g xs v, ∃ j : Nat, iv.1 = .dict g ∧ dlookup (Key.str "Parameters") g = some (.list xs) ∧ xs[j]? = some v ∧ ¬ NamesParameter t v ∧
        p = facePath ++ [.str "ParameterGroups", .int iv.2, .str "Parameters", .int j]) (by
        rintro ⟨x, i⟩ hm
        obtain ⟨g, rfl, -, hps⟩ := hgd i x (List.mem_zipIdx_iff_getElem?.1 hm)
        simp only [groupParams, pyIn, dhas]
        cases hd : dlookup (Key.str "Parameters") g with
        | none =>
          refine ⟨[], rfl, fun p => ⟨fun h => (by cases h), ?_⟩⟩
          rintro ⟨g', xs, v, j, e, h6, -⟩
          cases e
          rw [hd] at h6
          cases h6
        | some ps =>
          obtain ⟨xs, rfl⟩ := hps ps hd
          simp only [Option.isSome_some, getParametersItem, hd, iterOf]
          refine ⟨_, rfl, fun p => ?_⟩
          simp only [List.mem_map, List.mem_filter]
          constructor
          · rintro ⟨⟨v, j⟩, ⟨hv, hnv⟩, rfl⟩
            exact ⟨g, xs, v, j, rfl, hd, List.mem_zipIdx_iff_getElem?.1 hv, (hnot v).1 hnv, rfl⟩
          · rintro ⟨g', xs', v, j, e, h6, h7, h8, rfl⟩
            cases e
            rw [hd] at h6
            cases h6
            exact ⟨(v, j), ⟨List.mem_zipIdx_iff_getElem?.2 h7, (hnot v).2 h8⟩, rfl⟩)
    rw [h4]
    refine ⟨_, rfl, fun p => ?_⟩
    rw [List.mem_append, h5]
    refine or_congr ?_ ?_
    · constructor
      · rintro ⟨⟨x, i⟩, hm, g, xs, v, j, e, h6, h7, h8, rfl⟩
        cases e
        exact ⟨i, j, v, (hgat i j v).2 ⟨g, xs, List.mem_zipIdx_iff_getElem?.1 hm, h6, h7⟩, rfl, h8⟩
      · rintro ⟨i, j, v, hat, rfl, h8⟩
        obtain ⟨g, xs, h6, h7, h9⟩ := (hgat i j v).1 hat
        exact ⟨(.dict g, i), List.mem_zipIdx_iff_getElem?.2 h6, g, xs, v, j, rfl, h7, h9, h8, rfl⟩
    · cases hd : dlookup (Key.str "ParameterLabels") kvs with
      | none =>
        simp only [Option.getD_none, List.filter_nil, List.map_nil, List.not_mem_nil, false_iff]
        rintro ⟨k, v, hat, rfl, -⟩
        obtain ⟨_, h6, -⟩ := (at_below h2).1 ((h3 _ _ _).1 hat)
        rw [hd] at h6
        cases h6
      | some lb =>
        have hlat : At t (facePath ++ [.str "ParameterLabels"]) lb := (h3 _ _ _).2 ((at_obj h2).2 hd)
        obtain ⟨labels, rfl⟩ := hn.labels lb hlat
        simp only [Option.getD_some, List.mem_map, List.mem_filter]
        have hc : ∀ k : Key, (!ks.contains k) = true ↔ ¬ NamesParameter t k.toVal := by
          intro k
          rw [← hks]
          simp only [key_toVal_inj]
          simp
        constructor
        · rintro ⟨⟨k, v⟩, ⟨hkv, hnk⟩, rfl⟩
          exact ⟨k, v, (h3 _ _ _).2 ((at_below h2).2 ⟨_, hd, at_dict_one.2 hkv⟩), rfl, (hc k).1 hnk⟩
        · rintro ⟨k, v, hat, rfl, hnk⟩
          obtain ⟨_, h6, h7⟩ := (at_below h2).1 ((h3 _ _ _).1 hat)
          rw [hd] at h6
          cases h6
          exact ⟨(k, v), ⟨at_dict_one.1 h7, (hc k).2 hnk⟩, rfl⟩

/-- C107: the findings of E3007 are the resources with a type that share a name with a parameter. -/
theorem C107_unique {t : Val} (hw : t.WF) (htop : ∃ kvs, t = .dict kvs) (hp : ∀ v, At t [.str "Parameters"] v → ∃ kvs, v = .dict kvs) :
    ∃ l, uniqueNames t = .ok l ∧ ∀ p, p ∈ l ↔ ∃ k r d, TypedResource t k r ∧ At t [.str "Parameters", k] d ∧ p = [.str "Resources", k] := by
  obtain ⟨top, rfl⟩ := htop
  have hgr : ∃ rs, getResources (.dict top) = .ok rs := by
    unfold getResources
    simp only [Val.getD]
    split
    · rename_i h; cases h
    · exact ⟨_, rfl⟩
    · exact ⟨_, rfl⟩
  obtain ⟨rs, hrs⟩ := hgr
  have hps : ∃ ps, (Val.dict top).getD "Parameters" (.dict []) = .ok (.dict ps) ∧ ∀ k, dhas k ps = true ↔ ∃ d, At (.dict top) [.str "Parameters", k] d := by
    simp only [Val.getD]
    cases hd : dlookup (Key.str "Parameters") top with
    | none =>
      refine ⟨[], rfl, fun k => ⟨fun h => (by cases h), ?_⟩⟩
      rintro ⟨d, h⟩
      obtain ⟨_, h6, -⟩ := (at_below hw).1 h
      rw [hd] at h6
      cases h6
    | some ps =>
      obtain ⟨kvs, rfl⟩ := hp ps ((at_obj hw).2 hd)
      refine ⟨kvs, rfl, fun k => ?_⟩
      rw [dhas_iff, List.mem_map]
      constructor
      · rintro ⟨⟨k, d⟩, hm, rfl⟩; exact ⟨d, (at_below hw).2 ⟨_, hd, at_dict_one.2 hm⟩⟩
      · rintro ⟨d, h⟩
        obtain ⟨_, h6, h7⟩ := (at_below hw).1 h
        rw [hd] at h6
        cases h6
        exact ⟨(k, d), at_dict_one.1 h7, rfl⟩
  obtain ⟨ps, h1, h2⟩ := hps
  unfold uniqueNames
  simp only [hrs, h1]
  obtain ⟨l, h3, h4⟩ := collectM_spec (as := rs) (f := fun r => (.ok (if dhas r.1 ps then [[.str "Resources", r.1]] else []) : PyM (List Path)))
    (P := fun r p => dhas r.1 ps = true ∧ p = [.str "Resources", r.1]) (by
      intro r _
      refine ⟨_, rfl, fun p => ?_⟩
      split <;> simp_all)
  refine ⟨l, h3, fun p => ?_⟩
  rw [h4]
  constructor
  · rintro ⟨⟨k, v⟩, hm, h5, rfl⟩
    obtain ⟨r, rfl, hr⟩ := (mem_getResources hw hrs k v).1 hm
    obtain ⟨d, hd⟩ := (h2 k).1 h5
    exact ⟨k, r, d, hr, hd, rfl⟩
  · rintro ⟨k, r, d, hr, hd, rfl⟩
    exact ⟨(k, .dict r), (mem_getResources hw hrs k _).2 ⟨r, rfl, hr⟩, (h2 k).2 ⟨d, hd⟩, rfl⟩

/-- C107: a template with resources and without any parameters under `Parameters:` ends E3007 with an error. -/
theorem C107_null_raises {top : List (Key × Val)} (hd : dlookup (Key.str "Parameters") top = some .none) {kv : Key × Val} {rs : List (Key × Val)}
    (hrs : getResources (.dict top) = .ok (kv :: rs)) : ∃ m, uniqueNames (.dict top) = .error (.typeError m) := by
  unfold uniqueNames
  simp only [hrs, Val.getD, hd, collectM]
  exact ⟨_, rfl⟩

/-- C107: parameters that are a list are searched by their items: the resources with a type whose names are in the list are found. -/
theorem C107_unique_list {t : Val} (hw : t.WF) {xs : List Val} (hp : At t [.str "Parameters"] (.list xs)) :
    ∃ l, uniqueNames t = .ok l ∧ ∀ p, p ∈ l ↔ ∃ k r, TypedResource t k r ∧ k.toVal ∈ xs ∧ p = [.str "Resources", k] := by
  obtain ⟨top, rfl⟩ : ∃ top, t = .dict top := by
    cases hp with
    | key => exact ⟨_, rfl⟩
  have hgr : ∃ rs, getResources (.dict top) = .ok rs := by
    unfold getResources
    simp only [Val.getD]
    split
    · rename_i h; cases h
    · exact ⟨_, rfl⟩
    · exact ⟨_, rfl⟩
  obtain ⟨rs, hrs⟩ := hgr
  have h1 : (Val.dict top).getD "Parameters" (.dict []) = .ok (.list xs) := by
    simp only [Val.getD, (at_obj hw).1 hp, Option.getD_some]
  unfold uniqueNames
  simp only [hrs, h1]
  obtain ⟨l, h3, h4⟩ := collectM_spec (as := rs) (f := fun r => (.ok (if xs.any (fun x => x == r.1.toVal) then [[.str "Resources", r.1]] else []) : PyM (List Path)))
    (P := fun r p => r.1.toVal ∈ xs ∧ p = [.str "Resources", r.1]) (by
      intro r _
      refine ⟨_, rfl, fun p => ?_⟩
      split <;> simp_all)
  refine ⟨l, h3, fun p => ?_⟩
  rw [h4]
  constructor
  · rintro ⟨⟨k, v⟩, hm, h5, rfl⟩
    obtain ⟨r, rfl, hr⟩ := (mem_getResources hw hrs k v).1 hm
    exact ⟨k, r, hr, h5, rfl⟩
  · rintro ⟨k, r, hr, hd, rfl⟩
    exact ⟨(k, .dict r), (mem_getResources hw hrs k _).2 ⟨r, rfl, hr⟩, hd, rfl⟩

example : ∃ t : Val, t.WF ∧ ∃ xs, At t [.str "Parameters"] (.list xs) := ⟨.dict [(.str "Parameters", .list [])], by simp [Val.WF, Val.WFDict, Val.WFList], [], .key (by simp) .here⟩

/-- C107: so do groups that are left empty in E4001. -/
theorem C107_groups_raise {t : Val} {kvs : List (Key × Val)} (hi : interfaceOf t = .ok (some (.dict kvs))) (hd : dlookup (Key.str "ParameterGroups") kvs = some .none) :
    ∃ m, interfaceRule t = .error (.typeError m) := by
  unfold interfaceRule
  simp only [hi, hd, Option.getD_some, iterOf]
  exact ⟨_, rfl⟩

/-- C107: a group that is a text has a finding for each of its characters. -/
theorem C107_text_group (s : String) (i : Nat) : ∃ l, groupKeys (.str s, i) = .ok l ∧ l.length = s.length := by
  refine ⟨_, rfl, ?_⟩
  rw [List.length_map, List.filter_eq_self.2, List.length_map, String.length_toList]
  intro v hv
  obtain ⟨c, -, rfl⟩ := List.mem_map.1 hv
  have : ∀ u : String, u.toList.length ≠ 1 → (Val.str (String.ofList [c]) == .str u) = false := by
    intro u hu
    rw [beq_eq_false_iff_ne]
    intro e
    cases e
    exact hu (by simp)
  rw [this "Label" (by decide +kernel), this "Parameters" (by decide +kernel)]
  rfl

/-! ### examples -/

def exFace : Val := .dict [
  (.str "Parameters", .dict [(.str "Size", .dict [(.str "Type", .str "String")])]),
  (.str "Metadata", .dict [(.str "AWS::CloudFormation::Interface", .dict [
    (.str "ParameterGroups", .list [.dict [(.str "Labels", .str "a"), (.str "Parameters", .list [.str "Size", .str "Shape"])]]),
    (.str "ParameterLabels", .dict [(.str "Colour", .str "b")]), (.str "Groups", .list [])])]),
  (.str "Resources", .dict [(.str "Size", .dict [(.str "Type", .str "AWS::SNS::Topic")]), (.str "Other", .dict [(.str "Type", .str "AWS::SNS::Topic")])])]

example : interfaceRule exFace = .ok [facePath ++ [.str "Groups"], facePath ++ [.str "ParameterGroups", .int 0, .str "Labels"]] := by decide +kernel
example : interfaceParams exFace = .ok [facePath ++ [.str "ParameterGroups", .int 0, .str "Parameters", .int 1], facePath ++ [.str "ParameterLabels", .str "Colour"]] := by
  decide +kernel
example : uniqueNames exFace = .ok [[.str "Resources", .str "Size"]] := by decide +kernel

theorem exFace_wf : exFace.WF := by simp [exFace, Val.WF, Val.WFDict, Val.WFList]

theorem exFace_at {p : Path} {v w : Val} (h : At exFace p v) (h' : At exFace p w) : v = w := at_det exFace_wf h h'

theorem exFace_shape : InterfaceShape exFace where
  top := ⟨_, rfl⟩
  metadata v h := ⟨_, exFace_at h (.key (List.mem_cons_of_mem _ List.mem_cons_self) .here)⟩
  face v h := ⟨_, exFace_at h (.key (List.mem_cons_of_mem _ List.mem_cons_self) (.key List.mem_cons_self .here))⟩
  groups v h := ⟨_, exFace_at h (.key (List.mem_cons_of_mem _ List.mem_cons_self) (.key List.mem_cons_self (.key List.mem_cons_self .here)))⟩
  group i v h := by
    obtain ⟨u, h1, h2⟩ := at_split (p := facePath ++ [.str "ParameterGroups"]) (q := [.int i]) h
    have := exFace_at h1 (.key (List.mem_cons_of_mem _ List.mem_cons_self) (.key List.mem_cons_self (.key List.mem_cons_self .here)))
    subst this
    obtain ⟨x, h3, h4⟩ := at_index.1 h2
    cases h4
    have := List.mem_singleton.1 (List.mem_of_getElem? h3)
    exact ⟨_, this⟩

theorem exFace_names : InterfaceNames exFace where
  parameters v h := ⟨_, exFace_at h (.key List.mem_cons_self .here)⟩
  lists i v h := by
    obtain ⟨u, h1, h2⟩ := at_split (p := facePath ++ [.str "ParameterGroups"]) (q := [.int i, .str "Parameters"]) h
    have := exFace_at h1 (.key (List.mem_cons_of_mem _ List.mem_cons_self) (.key List.mem_cons_self (.key List.mem_cons_self .here)))
    subst this
    obtain ⟨x, h3, h4⟩ := at_index.1 h2
    have := List.mem_singleton.1 (List.mem_of_getElem? h3)
    subst this
    have := at_dict_one.1 h4
    simp only [List.mem_cons, List.not_mem_nil, or_false, Prod.mk.injEq, Key.str.injEq] at this
    rcases this with ⟨e, -⟩ | ⟨-, rfl⟩
    · exact absurd e (by decide)
    · exact ⟨_, rfl⟩
  labels v h := ⟨_, exFace_at h (.key (List.mem_cons_of_mem _ List.mem_cons_self) (.key List.mem_cons_self (.key (List.mem_cons_of_mem _ List.mem_cons_self) .here)))⟩

example : ∃ l, interfaceRule exFace = .ok l ∧ ∀ p, p ∈ l ↔ StrayEntry exFace p := C107_entries exFace_wf exFace_shape
example : ∃ l, interfaceParams exFace = .ok l ∧ ∀ p, p ∈ l ↔ UnknownName exFace p := C107_names exFace_wf exFace_shape exFace_names
example : ∃ l, uniqueNames exFace = .ok l ∧ ∀ p, p ∈ l ↔ ∃ k r d, TypedResource exFace k r ∧ At exFace [.str "Parameters", k] d ∧ p = [.str "Resources", k] :=
  C107_unique exFace_wf ⟨_, rfl⟩ exFace_names.parameters

end CfnLint
