import Verif.Lemmas.Specs
/-
C38: specification overrides merge correctly.
-/
namespace CfnLint
open Spec

theorem holds_dict {d : List (Key × Val)} {k : Key} {p : List Key} {w : Val} (hd : (d.map Prod.fst).Nodup) :
    Holds (.dict d) (k :: p) w ↔ ∃ x, dlookup k d = some x ∧ Holds x p w := by
  constructor
  · rintro ⟨⟩
    rename_i x hx hw
    exact ⟨x, dlookup_of_mem hd hx, hw⟩
  · rintro ⟨x, hx, hw⟩
    exact .into (dlookup_mem hx) hw

theorem holds_leaf_nil {v w : Val} {p : List Key} (hl : IsLeaf v) (h : Holds v p w) : p = [] ∧ w = v := by
  cases h with
  | here => exact ⟨rfl, rfl⟩
  | into hm _ => exact absurd rfl (hl _)

theorem holds_nil_iff {v w : Val} : Holds v [] w ↔ w = v := by
  constructor
  · intro h; cases h; rfl
  · rintro rfl; exact .here _

theorem isLeaf_or_dict (v : Val) : IsLeaf v ∨ ∃ d, v = .dict d := by
  cases v with
  | dict d => exact Or.inr ⟨d, rfl⟩
  | none => exact Or.inl (by intro d hd; cases hd)
  | bool => exact Or.inl (by intro d hd; cases hd)
  | int => exact Or.inl (by intro d hd; cases hd)
  | flt => exact Or.inl (by intro d hd; cases hd)
  | str => exact Or.inl (by intro d hd; cases hd)
  | list => exact Or.inl (by intro d hd; cases hd)

theorem wf_child {d : List (Key × Val)} {k : Key} {v : Val} (h : (Val.dict d).WF) (hl : dlookup k d = some v) : v.WF := by
  simp only [Val.WF] at h
  exact wfDict_mem h.2 (k, v) (dlookup_mem hl)

/-- the leaves of the merged dictionary, given those of its children -/
theorem mergeSpec_leaf : ∀ (p : List Key) (s d r : List (Key × Val)) (w : Val), (Val.dict s).WF → (Val.dict d).WF →
    mergeSpec s d = .ok r → IsLeaf w →
    (Holds (.dict r) p w ↔ Holds (.dict s) p w ∨ (Holds (.dict d) p w ∧ ¬ Mentioned (.dict s) p)) := by
  intro p
  induction p with
  | nil =>
    intro s d r w _ _ _ hw
    simp only [holds_nil_iff]
    constructor
    · intro h; exact absurd h (hw r)
    · rintro (h | ⟨h, _⟩)
      · exact absurd h (hw s)
      · exact absurd h (hw d)
  | cons k p ih =>
    intro s d r w hs hd h hw
    have hs1 : (s.map Prod.fst).Nodup := by simp only [Val.WF] at hs; exact hs.1
    have hd1 : (d.map Prod.fst).Nodup := by simp only [Val.WF] at hd; exact hd.1
    have hr1 := mergeSpec_nodup h hd1
    obtain ⟨hin, hout⟩ := mergeSpec_lookup hs1 h
    have hmen : Mentioned (.dict s) (k :: p) ↔ ∃ v, dlookup k s = some v ∧ Mentioned v p := by
      constructor
      · rintro ⟨q, w', hq, hh, hl⟩
        cases q with
        | nil => rw [holds_nil_iff] at hh; exact absurd hh (hl s)
        | cons k' q =>
          obtain ⟨rfl, hq'⟩ := List.cons_prefix_cons.1 hq
          rw [holds_dict hs1] at hh
          obtain ⟨x, hx, hh⟩ := hh
          exact ⟨x, hx, q, w', hq', hh, hl⟩
      · rintro ⟨v, hv, q, w', hq, hh, hl⟩
        exact ⟨k :: q, w', List.cons_prefix_cons.2 ⟨rfl, hq⟩, (holds_dict hs1).2 ⟨v, hv, hh⟩, hl⟩
    rw [holds_dict hr1, holds_dict hs1, holds_dict hd1, hmen]
    cases hks : dlookup k s with
    | none =>
      rw [hout k (dlookup_none_iff.1 hks)]
      constructor
      · intro h; exact Or.inr ⟨h, by rintro ⟨v, hv, _⟩; cases hv⟩
      · rintro (⟨x, hx, _⟩ | ⟨h, _⟩)
        · cases hx
        · exact h
    | some v =>
      obtain ⟨n, hn, hnr⟩ := hin k v (dlookup_mem hks)
      have hvwf := wf_child hs hks
      simp only [Option.some.injEq, exists_eq_left', hnr]
      rcases isLeaf_or_dict v with hv | ⟨sub, rfl⟩
      · rw [mergeSpecVal_leaf hv hn]
        constructor
        · exact Or.inl
        · rintro (h | ⟨_, h⟩)
          · exact h
          · exact absurd ⟨[], v, List.nil_prefix, .here _, hv⟩ h
      · rcases mergeSpecVal_dict hn with ⟨hx, m, hm, rfl⟩ | ⟨old, hx, m, hm, rfl⟩ | ⟨rfl, y, hx, hy, rfl⟩
        · rw [ih sub [] m w hvwf (by simp [Val.WF, Val.WFDict]) hm hw]
          constructor
          · rintro (h | ⟨h, h'⟩)
            · exact Or.inl h
            · cases h with
              | here => exact absurd rfl (hw [])
              | into hm _ => cases hm
          · rintro (h | ⟨⟨x, hx', _⟩, _⟩)
            · exact Or.inl h
            · rw [hx] at hx'; cases hx'
        · rw [ih sub old m w hvwf (wf_child hd hx) hm hw, hx]
          simp only [Option.some.injEq, exists_eq_left']
        · rw [hx]
          simp only [Option.some.injEq, exists_eq_left']
          constructor
          · intro h
            refine Or.inr ⟨h, ?_⟩
            rintro ⟨q, w', hq, hh, hl⟩
            cases hh with
            | here => exact absurd rfl (hl [])
            | into hm _ => cases hm
          · rintro (h | ⟨h, _⟩)
            · cases h with
              | here => exact absurd rfl (hw [])
              | into hm _ => cases hm
            · exact h

/-- **C38** (merge). The leaves of the specification after the merge are exactly the leaves of the override and those old
leaves which the override does not mention. -/
theorem C38_merge_leaves {o spec r : List (Key × Val)} (ho : (Val.dict o).WF) (hs : (Val.dict spec).WF)
    (h : mergeSpec o spec = .ok r) (p : List Key) (w : Val) (hw : IsLeaf w) :
    Holds (.dict r) p w ↔ Holds (.dict o) p w ∨ (Holds (.dict spec) p w ∧ ¬ Mentioned (.dict o) p) :=
  mergeSpec_leaf p o spec r w ho hs h hw

/-- **C38** (merge, again). Merging the same override a second time succeeds and changes nothing at all. -/
theorem C38_merge_idempotent {o spec r : List (Key × Val)} (ho : (Val.dict o).WF) (h : mergeSpec o spec = .ok r) :
    mergeSpec o r = .ok r := by
  have := mergeSpecVal_again (.dict o) ho (some (.dict spec)) (.dict r) (by rw [mergeSpecVal, h])
  rw [mergeSpecVal] at this
  split at this
  · cases this
  · rename_i n hn; cases this; exact hn

/-- an object of the override with entries where the specification has something other than an object -/
def Conflict (o spec : Val) : Prop :=
  ∃ p kv rest w, Holds o p (.dict (kv :: rest)) ∧ Holds spec p w ∧ IsLeaf w

theorem mergeSpec_succeeds (v : Val) : v.WF → ∀ sub, v = .dict sub → ∀ d, (Val.dict d).WF → ¬ Conflict v (.dict d) →
    ∃ r, mergeSpec sub d = .ok r := by
  refine Val.ind (P := fun v => v.WF → ∀ sub, v = .dict sub → ∀ d, (Val.dict d).WF → ¬ Conflict v (.dict d) →
    ∃ r, mergeSpec sub d = .ok r) ?_ ?_ ?_ ?_ ?_ ?_ ?_ v
  · intro _ sub h; cases h
  · intro _ _ sub h; cases h
  · intro _ _ sub h; cases h
  · intro _ _ sub h; cases h
  · intro _ _ sub h; cases h
  · intro _ _ _ sub h; cases h
  intro full ih hwf sub hsub d hd hc
  cases hsub
  have hwf' := hwf
  simp only [Val.WF] at hwf
  have hd1 : (d.map Prod.fst).Nodup := by simp only [Val.WF] at hd; exact hd.1
  have step : ∀ kv ∈ full, ∃ n, mergeSpecVal kv.2 (dlookup kv.1 d) = .ok n := by
    intro kv hkv
    obtain ⟨k, x⟩ := kv
    have hx := wfDict_mem hwf.2 _ hkv
    rcases isLeaf_or_dict x with hl | ⟨sub, rfl⟩
    · exact ⟨x, mergeSpecVal_leaf_eq _ hl⟩
    · cases hk : dlookup k d with
      | none => exact mergeSpecVal_none _ hx
      | some y =>
        rcases isLeaf_or_dict y with hy | ⟨old, rfl⟩
        · cases sub with
          | nil =>
            exact ⟨y, mergeSpecVal_empty hy⟩
          | cons e rest =>
            exact absurd ⟨[k], e, rest, y, .into hkv (.here _), .into (dlookup_mem hk) (.here _), hy⟩ hc
        · obtain ⟨m, hm⟩ := ih _ hkv hx sub rfl old (wf_child hd hk) (by
            rintro ⟨p, e, rest, w, h1, h2, h3⟩
            exact hc ⟨k :: p, e, rest, w, .into hkv h1, .into (dlookup_mem hk) h2, h3⟩)
          exact ⟨.dict m, by simp only; rw [mergeSpecVal, hm]⟩
  have key : ∀ (s acc : List (Key × Val)), (∀ kv ∈ s, kv ∈ full) → (s.map Prod.fst).Nodup →
      (∀ k ∈ s.map Prod.fst, dlookup k acc = dlookup k d) → ∃ m, mergeSpec s acc = .ok m := by
    intro s
    induction s with
    | nil => intro acc _ _ _; exact ⟨acc, by rw [mergeSpec]⟩
    | cons kv rest ihs =>
      intro acc hs hnd hsame
      obtain ⟨k, x⟩ := kv
      simp only [List.map_cons, List.nodup_cons] at hnd
      obtain ⟨n, hn⟩ := step (k, x) (hs _ (List.mem_cons_self ..))
      simp only at hn
      rw [mergeSpec, hsame k (by simp), hn]
      simp only
      apply ihs _ (fun kv h => hs kv (List.mem_cons_of_mem _ h)) hnd.2
      intro k' hk'
      have hne : k' ≠ k := by intro he; subst he; exact hnd.1 hk'
      rw [dlookup_dset, if_neg (Ne.symm hne)]
      exact hsame k' (by simp only [List.map_cons]; exact List.mem_cons_of_mem _ hk')
  exact key full d (fun _ h => h) hwf.1 (fun _ _ => rfl)

/-- The merge raises exactly when an object with entries meets something that is not an object. -/
theorem C38_merge_fails_iff {o spec : List (Key × Val)} (ho : (Val.dict o).WF) (hs : (Val.dict spec).WF) :
    (∃ e, mergeSpec o spec = .error e) ↔ Conflict (.dict o) (.dict spec) := by
  constructor
  · rintro ⟨e, he⟩
    by_cases hc : Conflict (.dict o) (.dict spec)
    · exact hc
    · obtain ⟨r, hr⟩ := mergeSpec_succeeds (.dict o) ho o rfl spec hs hc
      rw [he] at hr; cases hr
  · intro hc
    cases hm : mergeSpec o spec with
    | error e => exact ⟨e, rfl⟩
    | ok r =>
      exfalso
      obtain ⟨p, kv, rest, w, h1, h2, h3⟩ := hc
      revert o spec r
      induction p with
      | nil =>
        intro o spec _ _ r _ h1 h2
        rw [holds_nil_iff] at h2
        exact h3 _ h2
      | cons k p ih =>
        intro o spec ho hs r hm h1 h2
        have ho1 : (o.map Prod.fst).Nodup := by simp only [Val.WF] at ho; exact ho.1
        have hs1 : (spec.map Prod.fst).Nodup := by simp only [Val.WF] at hs; exact hs.1
        obtain ⟨x, hx, h1⟩ := (holds_dict ho1).1 h1
        obtain ⟨y, hy, h2⟩ := (holds_dict hs1).1 h2
        obtain ⟨n, hn, _⟩ := (mergeSpec_lookup ho1 hm).1 k x (dlookup_mem hx)
        rw [hy] at hn
        rcases isLeaf_or_dict x with hl | ⟨sub, rfl⟩
        · exact absurd (holds_leaf_nil hl h1).2.symm (hl _)
        · rcases mergeSpecVal_dict hn with ⟨hx, _⟩ | ⟨old, hx, m, hm, rfl⟩ | ⟨rfl, y', hx, hy', rfl⟩
          · cases hx
          · cases hx
            exact ih (wf_child ho ‹_›) (wf_child hs ‹_›) m hm h1 h2
          · cases h1 with
            | into hm _ => cases hm

/-- whether the lists of the override file keep a resource type -/
def KeepsType (rx : String → Option (String → Bool)) (includes excludes : List String) (x : String) : Prop :=
  (includes = [] ∨ ∃ p ∈ includes, ∃ m, rx (typePattern p) = some m ∧ m x = true) ∧
    ∀ p ∈ excludes, ∀ m, rx (typePattern p) = some m → m x = false

theorem keptTypes_mem {rx : String → Option (String → Bool)} {includes excludes all res : List String} {x : String}
    (h : keptTypes rx includes excludes all = .ok res) :
    x ∈ res ↔ x ∈ all ∧ KeepsType rx includes excludes x := by
  unfold keptTypes at h
  split at h
  · cases h
  · rename_i r0 hr0
    rw [excludeTypes_mem h]
    unfold KeepsType
    split at hr0
    · rename_i hi; cases hr0; simp [hi]
    · rename_i hi
      rw [includeTypes_mem hr0]
      simp only [hi, false_or, and_assoc]

theorem keptTypes_ok {rx : String → Option (String → Bool)} {includes excludes all res : List String}
    (h : keptTypes rx includes excludes all = .ok res) {all' : List String} :
    ∃ res', keptTypes rx includes excludes all' = .ok res' := by
  unfold keptTypes at h ⊢
  split at h
  · cases h
  · rename_i r0 hr0
    split at hr0
    · rename_i hi
      obtain ⟨out', ho'⟩ := excludeTypes_ok h all'
      exact ⟨out', by rw [if_pos hi]; exact ho'⟩
    · rename_i hi
      obtain ⟨r1, hr1⟩ := includeTypes_ok (all' := all') hr0
      obtain ⟨out', ho'⟩ := excludeTypes_ok h r1
      exact ⟨out', by rw [if_neg hi, hr1]; exact ho'⟩

/-- What `set_specs` does: it merges, and filters the resource types by the two lists. -/
theorem setSpecs_spec {rx : String → Option (String → Bool)} {includes excludes : List String}
    {o spec r : List (Key × Val)} (h : setSpecs rx includes excludes o spec = .ok r) :
    ∃ merged types, mergeSpec o spec = .ok merged ∧ dlookup (.str "ResourceTypes") merged = some (.dict types) ∧
      ∃ res, r = dset (.str "ResourceTypes") (.dict (types.filter (fun kv => keyIn kv.1 res))) merged ∧
      (∀ x, x ∈ res ↔ x ∈ typeNames types ∧ KeepsType rx includes excludes x) ∧
      (∀ all, ∃ res', keptTypes rx includes excludes all = .ok res') := by
  have hmerge : (if o = [] then .ok spec else mergeSpec o spec : PyM _) = mergeSpec o spec := by
    split
    · rename_i h; subst h; rw [mergeSpec]
    · rfl
  unfold setSpecs at h
  rw [hmerge] at h
  split at h
  · cases h
  · rename_i merged hm
    split at h
    · cases h
    · rename_i types ht
      split at h
      · cases h
      · rename_i res hres
        cases h
        exact ⟨merged, types, hm, ht, res, rfl, fun x => keptTypes_mem hres, fun all => keptTypes_ok hres⟩
    · cases h

open Classical in
/-- the filter in terms of the lists of the file -/
theorem filter_keyIn {rx : String → Option (String → Bool)} {includes excludes : List String}
    {types : List (Key × Val)} {res : List String}
    (hres : ∀ x, x ∈ res ↔ x ∈ typeNames types ∧ KeepsType rx includes excludes x) :
    types.filter (fun kv => keyIn kv.1 res) = types.filter (fun kv =>
      (fun k : Key => match k with
        | .str s => decide (KeepsType rx includes excludes s)
        | .int _ => false) kv.1) := by
  apply List.filter_congr
  rintro ⟨k, v⟩ hkv
  cases k with
  | int => rfl
  | str s =>
    simp only [keyIn, decide_eq_decide, hres, typeNames_mem]
    constructor
    · exact And.right
    · exact fun h => ⟨List.mem_map_of_mem (f := Prod.fst) hkv, h⟩

/-- **C38**. After an override is applied to a region, the leaves of the specification are exactly the leaves of the
override and the old leaves it does not mention, apart from those of resource types the lists of the file remove. -/
theorem C38_set_leaves {rx : String → Option (String → Bool)} {includes excludes : List String}
    {o spec r : List (Key × Val)} (ho : (Val.dict o).WF) (hs : (Val.dict spec).WF)
    (h : setSpecs rx includes excludes o spec = .ok r) (p : List Key) (w : Val) (hw : IsLeaf w) :
    Holds (.dict r) p w ↔
      (Holds (.dict o) p w ∨ (Holds (.dict spec) p w ∧ ¬ Mentioned (.dict o) p)) ∧
      (∀ x q, p = .str "ResourceTypes" :: x :: q → ∃ s, x = .str s ∧ KeepsType rx includes excludes s) := by
  obtain ⟨merged, types, hm, ht, res, rfl, hres, _⟩ := setSpecs_spec h
  have hs1 : (spec.map Prod.fst).Nodup := by simp only [Val.WF] at hs; exact hs.1
  have hm1 := mergeSpec_nodup hm hs1
  rw [← C38_merge_leaves ho hs hm p w hw]
  have hr1 := dset_nodup (.str "ResourceTypes") (.dict (types.filter (fun kv => keyIn kv.1 res))) hm1
  cases p with
  | nil =>
    simp only [holds_nil_iff]
    constructor
    · intro h; exact absurd h (hw _)
    · rintro ⟨h, _⟩; exact absurd h (hw _)
  | cons k p =>
    rw [holds_dict hr1, holds_dict hm1, dlookup_dset]
    by_cases hk : Key.str "ResourceTypes" = k
    · subst hk
      rw [if_pos rfl, ht]
      simp only [Option.some.injEq, exists_eq_left', List.cons.injEq, true_and]
      cases p with
      | nil =>
        simp only [holds_nil_iff]
        constructor
        · intro h; exact absurd h (hw _)
        · rintro ⟨h, _⟩; exact absurd h (hw _)
      | cons x q =>
        constructor
        · intro hh
          cases hh with
          | into hmem hh =>
            rw [List.mem_filter] at hmem
            refine ⟨.into hmem.1 hh, ?_⟩
            rintro x' q' ⟨rfl, rfl⟩
            cases x with
            | int => simp [keyIn] at hmem
            | str s =>
              simp only [keyIn, decide_eq_true_eq, hres] at hmem
              exact ⟨s, rfl, hmem.2.2⟩
        · rintro ⟨hh, hkeep⟩
          obtain ⟨s, rfl, hkept⟩ := hkeep x q rfl
          cases hh with
          | into hmem hh =>
            refine .into (List.mem_filter.2 ⟨hmem, ?_⟩) hh
            simp only [keyIn, decide_eq_true_eq, hres, typeNames_mem]
            exact ⟨List.mem_map_of_mem (f := Prod.fst) hmem, hkept⟩
    · rw [if_neg hk]
      constructor
      · intro h
        refine ⟨h, ?_⟩
        intro x q heq
        cases heq
        exact absurd rfl hk
      · exact And.left

/-- **C38** (again). Applying the same override a second time succeeds and changes nothing at all, even where the lists
of the file remove types the file itself describes. -/
theorem C38_set_idempotent {rx : String → Option (String → Bool)} {includes excludes : List String}
    {o spec r : List (Key × Val)} (ho : (Val.dict o).WF) (h : setSpecs rx includes excludes o spec = .ok r) :
    setSpecs rx includes excludes o r = .ok r := by
  classical
  obtain ⟨merged, types, hm, ht, res, rfl, hres, hloops⟩ := setSpecs_spec h
  have ho' := ho
  simp only [Val.WF] at ho
  obtain ⟨RT, hRT⟩ : ∃ RT : Key, RT = .str "ResourceTypes" := ⟨_, rfl⟩
  rw [← hRT] at ht ⊢
  let keep : Key → Bool := fun k => match k with
    | .str s => decide (KeepsType rx includes excludes s)
    | .int _ => false
  have hfil : ∀ {ts : List (Key × Val)} {rs : List String},
      (∀ x, x ∈ rs ↔ x ∈ typeNames ts ∧ KeepsType rx includes excludes x) →
      ts.filter (fun kv => keyIn kv.1 rs) = ts.filter (fun kv => keep kv.1) := fun h => filter_keyIn h
  rw [hfil hres]
  -- the second merge
  obtain ⟨hin, hout⟩ := mergeSpec_lookup ho.1 hm
  have hagain : ∀ kv ∈ o, kv.1 ≠ RT → ∃ n,
      dlookup kv.1 (dset RT (.dict (types.filter (fun kv => keep kv.1))) merged) = some n ∧
      mergeSpecVal kv.2 (some n) = .ok n := by
    intro kv hkv hne
    obtain ⟨n, hn, hl⟩ := hin kv.1 kv.2 hkv
    refine ⟨n, ?_, mergeSpecVal_again _ (wfDict_mem ho.2 kv hkv) _ _ hn⟩
    rw [dlookup_dset, if_neg (Ne.symm hne)]; exact hl
  have hsecond : ∃ types2, mergeSpec o (dset RT (.dict (types.filter (fun kv => keep kv.1))) merged) =
      .ok (dset RT (.dict types2) merged) ∧
      types2.filter (fun kv => keep kv.1) = types.filter (fun kv => keep kv.1) := by
    cases hort : dlookup RT o with
    | none =>
      refine ⟨types.filter (fun kv => keep kv.1), ?_, by simp⟩
      apply mergeSpec_fix
      intro kv hkv
      apply hagain kv hkv
      intro he
      exact dlookup_none_iff.1 hort (he ▸ List.mem_map_of_mem (f := Prod.fst) hkv)
    | some v =>
      have hmem := dlookup_mem hort
      have hvwf := wfDict_mem ho.2 _ hmem
      obtain ⟨n, hn, hl⟩ := hin RT v hmem
      rw [ht] at hl
      cases hl
      rcases isLeaf_or_dict v with hlf | ⟨sub, rfl⟩
      · exact absurd (mergeSpecVal_leaf hlf hn).symm (hlf _)
      have hfix := mergeSpecVal_again _ hvwf _ _ hn
      simp only [Val.WF] at hvwf
      -- the types, merged once more after the filter
      have hsubfix : mergeSpec sub types = .ok types := by
        rw [mergeSpecVal] at hfix
        split at hfix
        · cases hfix
        · rename_i m hm'; cases hfix; exact hm'
      obtain ⟨hin2, _⟩ := mergeSpec_lookup hvwf.1 hsubfix
      obtain ⟨types2, ht2, hf2⟩ := mergeSpec_filter (keep := keep) (s := sub)
        (d := types.filter (fun kv => keep kv.1)) hvwf.1 (fun kv hkv => wfDict_mem hvwf.2 kv hkv)
        (fun kv hkv hk => by
          obtain ⟨n, hn, hl⟩ := hin2 kv.1 kv.2 hkv
          refine ⟨n, by rw [dlookup_filter_keys, hk]; simpa using hl, ?_⟩
          exact mergeSpecVal_again _ (wfDict_mem hvwf.2 kv hkv) _ _ hn)
        (fun kv hkv hk => by rw [dlookup_filter_keys, hk]; rfl)
      refine ⟨types2, ?_, by rw [hf2]; simp⟩
      -- the other keys are already right
      have key : ∀ (s acc : List (Key × Val)), (s.map Prod.fst).Nodup →
          (∀ kv ∈ s, kv.1 ≠ RT → ∃ n, dlookup kv.1 acc = some n ∧ mergeSpecVal kv.2 (some n) = .ok n) →
          (∀ kv ∈ s, kv.1 = RT → kv.2 = .dict sub) →
          dlookup RT acc = some (.dict (types.filter (fun kv => keep kv.1))) →
          mergeSpec s acc = .ok (if RT ∈ s.map Prod.fst then dset RT (.dict types2) acc else acc) := by
        intro s
        induction s with
        | nil => intro acc _ _ _ _; rw [mergeSpec]; simp
        | cons kv rest ihs =>
          intro acc hnd h1 h2 h3
          obtain ⟨k, x⟩ := kv
          simp only [List.map_cons, List.nodup_cons] at hnd
          by_cases hk : k = RT
          · have hx := h2 (k, x) (List.mem_cons_self ..) hk
            simp only at hx
            subst hx
            rw [hk] at hnd ⊢
            rw [mergeSpec, h3, mergeSpecVal, ht2]
            simp only [List.map_cons, List.mem_cons, true_or, if_true]
            apply mergeSpec_fix
            intro kv hkv
            have hne : kv.1 ≠ RT := by
              intro he
              exact hnd.1 (he ▸ List.mem_map_of_mem (f := Prod.fst) hkv)
            obtain ⟨n, hl, hn⟩ := h1 kv (List.mem_cons_of_mem _ hkv) hne
            exact ⟨n, by rw [dlookup_dset, if_neg (Ne.symm hne)]; exact hl, hn⟩
          · obtain ⟨n, hl, hn⟩ := h1 (k, x) (List.mem_cons_self ..) hk
            simp only at hl hn
            rw [mergeSpec, hl, hn]
            simp only
            rw [dset_same hl, ihs acc hnd.2 (fun kv h => h1 kv (List.mem_cons_of_mem _ h))
              (fun kv h => h2 kv (List.mem_cons_of_mem _ h)) h3]
            simp [Ne.symm hk]
      rw [key o _ ho.1 hagain (fun kv hkv he => by
        have := dlookup_of_mem ho.1 hkv
        rw [he, hort] at this
        exact (Option.some.inj this).symm) (by rw [dlookup_dset, if_pos rfl])]
      rw [if_pos (List.mem_map_of_mem (f := Prod.fst) hmem), dset_dset]
  obtain ⟨types2, h2, hf2⟩ := hsecond
  have hmerge : ∀ d, (if o = [] then .ok d else mergeSpec o d : PyM _) = mergeSpec o d := by
    intro d
    split
    · rename_i h; subst h; rw [mergeSpec]
    · rfl
  obtain ⟨res', hres'⟩ := hloops (typeNames types2)
  unfold setSpecs
  rw [hmerge, h2]
  simp only [← hRT]
  rw [dlookup_dset, if_pos rfl]
  simp only [hres']
  rw [hfil (fun x => keptTypes_mem hres'), hf2, dset_dset]

/-- The hypotheses are met by an override that adds, replaces and excludes. -/
example : setSpecs (fun p => some (fun s => p == s ++ "$")) [] ["B"]
    [(.str "ResourceTypes", .dict [(.str "A", .int 2), (.str "B", .int 3)])]
    [(.str "ResourceTypes", .dict [(.str "A", .int 1), (.str "C", .int 4)]), (.str "Version", .str "1")] =
    .ok [(.str "ResourceTypes", .dict [(.str "A", .int 2), (.str "C", .int 4)]), (.str "Version", .str "1")] := by
  decide +kernel

/-- An override can conflict with the specification. -/
example : Conflict (.dict [(.str "A", .dict [(.str "B", .int 1)])]) (.dict [(.str "A", .int 1)]) :=
  ⟨[.str "A"], (.str "B", .int 1), [], .int 1, .into (List.mem_cons_self ..) (.here _),
    .into (List.mem_cons_self ..) (.here _), by intro d hd; cases hd⟩

/-! ### The patterns of the lists -/

theorem typeChar_plain {c : Char} (h : TypeChar c) : c ≠ '*' ∧ c ≠ '(' ∧ c ≠ '$' ∧ c ≠ '.' := by
  refine ⟨?_, ?_, ?_, ?_⟩ <;> rintro rfl <;> revert h <;> unfold TypeChar <;> decide

/-- the regular expression of a pattern of type characters and stars has the shape assumed -/
theorem glob_shape : ∀ p : List Char, (∀ c ∈ p, TypeChar c ∨ c = '*') →
    RxShape (p.flatMap (fun c => if c = '*' then "(.*)".toList else [c]) ++ ['$'])
  | [], _ => .stop
  | c :: p, hp => by
    have ih := glob_shape p (fun d hd => hp d (List.mem_cons_of_mem _ hd))
    rw [List.flatMap_cons, List.append_assoc]
    by_cases hc : c = '*'
    · rw [if_pos hc]
      exact .any ih
    · rw [if_neg hc]
      exact .char ((hp c List.mem_cons_self).resolve_right hc) ih

/-- the regular expression of a pattern matches what the pattern means -/
theorem glob_regex : ∀ (p x : List Char), (∀ c ∈ p, TypeChar c ∨ c = '*') →
    (RxMatch (p.flatMap (fun c => if c = '*' then "(.*)".toList else [c]) ++ ['$']) x ↔ Glob p x)
  | [], x, _ => by
    simp only [List.flatMap_nil, List.nil_append]
    constructor
    · intro h
      generalize hr : ['$'] = r at h
      cases h with
      | stop => exact .nil
      | any => cases hr
      | dot => cases hr
      | char hc =>
        cases hr
        exact absurd rfl (typeChar_plain hc).2.2.1
    · intro h
      cases h
      exact .stop
  | c :: p, x, hp => by
    have ih := fun x => glob_regex p x (fun d hd => hp d (List.mem_cons_of_mem _ hd))
    rw [List.flatMap_cons, List.append_assoc]
    by_cases hc : c = '*'
    · subst hc
      rw [if_pos rfl]
      constructor
      · intro h
        generalize hr : "(.*)".toList ++ (p.flatMap (fun c => if c = '*' then "(.*)".toList else [c]) ++ ['$']) = r at h
        cases h with
        | stop => cases hr
        | any s h =>
          injection hr with _ hr; injection hr with _ hr; injection hr with _ hr; injection hr with _ hr
          subst hr
          exact .star s ((ih _).1 h)
        | dot => cases hr
        | char hc =>
          injection hr with h1 _
          subst h1
          exact absurd rfl (typeChar_plain hc).2.1
      · intro h
        generalize hr : '*' :: p = r at h
        cases h with
        | nil => cases hr
        | star s h =>
          cases hr
          exact .any s ((ih _).2 h)
        | char hne h => cases hr; exact absurd rfl hne
    · rw [if_neg hc, List.singleton_append]
      have htc : TypeChar c := (hp c List.mem_cons_self).resolve_right hc
      constructor
      · intro h
        generalize hr : c :: (p.flatMap (fun c => if c = '*' then "(.*)".toList else [c]) ++ ['$']) = r at h
        cases h with
        | stop =>
          injection hr with h1 _
          subst h1
          exact absurd rfl (typeChar_plain htc).2.2.1
        | dot =>
          injection hr with h1 _
          subst h1
          exact absurd rfl (typeChar_plain htc).2.2.2
        | any s h =>
          injection hr with h1 _
          subst h1
          exact absurd rfl (typeChar_plain htc).2.1
        | char _ h =>
          injection hr with h1 h2
          subst h1
          subst h2
          exact .char hc ((ih _).1 h)
      · intro h
        generalize hr : c :: p = r at h
        cases h with
        | nil => cases hr
        | star s h => cases hr; exact absurd rfl hc
        | char hne h => cases hr; exact .char htc ((ih _).2 h)

/-- **C38** (lists). With patterns of type characters and stars, the types that stay are those that match a
pattern of the first list, if there is one, and none of the second. -/
theorem C38_patterns_partial (rx : String → Option (String → Bool)) (hrx : PyRegex rx) (includes excludes : List String)
    (hi : ∀ p ∈ includes ++ excludes, ∀ c ∈ p.toList, TypeChar c ∨ c = '*') (x : String)
    (hx : ∀ c ∈ x.toList, TypeChar c) :
    KeepsType rx includes excludes x ↔
      (includes = [] ∨ ∃ p ∈ includes, Glob p.toList x.toList) ∧ ∀ p ∈ excludes, ¬ Glob p.toList x.toList := by
  have key : ∀ p ∈ includes ++ excludes, ∃ m, rx (typePattern p) = some m ∧ (m x = true ↔ Glob p.toList x.toList) := by
    intro p hp
    have htl : (typePattern p).toList = p.toList.flatMap (fun c => if c = '*' then "(.*)".toList else [c]) ++ ['$'] := by
      simp [typePattern]
    obtain ⟨m, h1, h2⟩ := hrx (typePattern p) (by rw [htl]; exact glob_shape _ (hi p hp))
    refine ⟨m, h1, ?_⟩
    rw [h2 x hx, htl]
    exact glob_regex p.toList x.toList (hi p hp)
  unfold KeepsType
  refine and_congr (or_congr Iff.rfl ?_) ?_
  · constructor
    · rintro ⟨p, hp, m, h1, h2⟩
      obtain ⟨m', e1, e2⟩ := key p (List.mem_append_left _ hp)
      rw [h1] at e1
      cases e1
      exact ⟨p, hp, e2.1 h2⟩
    · rintro ⟨p, hp, h⟩
      obtain ⟨m', e1, e2⟩ := key p (List.mem_append_left _ hp)
      exact ⟨p, hp, m', e1, e2.2 h⟩
  · constructor
    · intro h p hp hg
      obtain ⟨m', e1, e2⟩ := key p (List.mem_append_right _ hp)
      have := h p hp m' e1
      rw [e2.2 hg] at this
      cases this
    · intro h p hp m hm
      obtain ⟨m', e1, e2⟩ := key p (List.mem_append_right _ hp)
      rw [hm] at e1
      cases e1
      rw [Bool.eq_false_iff]
      exact fun hc => h p hp (e2.1 hc)

/-- **C38** (lists), the full statement: whatever the patterns, the types that stay are those that match a pattern of
the first list, if there is one, and none of the second. -/
def C38_statement : Prop :=
  ∀ (rx : String → Option (String → Bool)) (includes excludes : List String) (x : String), PyRegex rx →
    (∀ c ∈ x.toList, TypeChar c) →
    (KeepsType rx includes excludes x ↔
      (includes = [] ∨ ∃ p ∈ includes, Glob p.toList x.toList) ∧ ∀ p ∈ excludes, ¬ Glob p.toList x.toList)

theorem abc_typed : ∀ c ∈ "ABC".toList, TypeChar c := by
  have h : ∀ c ∈ "ABC".toList, c.isAlphanum = true := by decide
  exact fun c hc => .inl (h c hc)

open Classical in
/-- **C38** A pattern is a regular expression but for its stars: `A.C` keeps the type `ABC`. -/
theorem C38_dot_violated : ¬ C38_statement := by
  intro h
  have := (h (fun r => some (fun x => decide (RxMatch r.toList x.toList))) ["A.C"] [] "ABC"
    (fun r _ => ⟨_, rfl, fun x _ => by simp⟩) abc_typed).1
    ⟨.inr ⟨_, List.mem_cons_self, _, rfl, decide_eq_true (by
      have : (typePattern "A.C").toList = ['A', '.', 'C', '$'] := by decide
      rw [this]
      exact .char (.inl (by decide)) (.dot (.char (.inl (by decide)) .stop)))⟩, fun p hp => nomatch hp⟩
  rcases this.1 with h | ⟨p, hp, hg⟩
  · cases h
  · simp only [List.mem_singleton] at hp
    subst hp
    have e1 : "A.C".toList = ['A', '.', 'C'] := by decide
    have e2 : "ABC".toList = ['A', 'B', 'C'] := by decide
    rw [e1, e2] at hg
    cases hg with
    | char _ hg => cases hg

-- a matcher as assumed exists
open Classical in
noncomputable example : ∃ rx, PyRegex rx :=
  ⟨fun r => some (fun x => decide (RxMatch r.toList x.toList)), fun r _ => ⟨_, rfl, fun x _ => by simp⟩⟩

example : Glob "AWS::*::Instance".toList "AWS::EC2::Instance".toList := by
  repeat (first | exact .nil | refine .char (by decide) ?_ | exact .star "EC2".toList (by
    repeat (first | exact .nil | refine .char (by decide) ?_)))

end CfnLint
