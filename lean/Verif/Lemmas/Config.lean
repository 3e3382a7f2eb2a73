import Mathlib.Data.String.Basic
import Verif.Lemmas.Dict
import Verif.Model.Config
import Verif.Spec.Config
namespace CfnLint
open Spec

theorem dlookup_append {α β : Type} [DecidableEq α] (k : α) : ∀ (a b : List (α × β)),
    dlookup k (a ++ b) = (dlookup k a).or (dlookup k b) := by
  intro a b
  induction a with
  | nil => simp [dlookup]
  | cons x a ih =>
    obtain ⟨k', v⟩ := x
    simp only [List.cons_append, dlookup, ih]
    split <;> simp

theorem dlookup_filter {α β : Type} [DecidableEq α] (k : α) (p : α → Bool) : ∀ (a : List (α × β)),
    dlookup k (a.filter (fun kv => p kv.1)) = if p k then dlookup k a else none := by
  intro a
  induction a with
  | nil => simp [dlookup]
  | cons x a ih =>
    obtain ⟨k', v⟩ := x
    simp only [List.filter_cons]
    by_cases hk : k' = k
    · subst hk
      cases h : p k' <;> simp_all [dlookup]
    · cases h : p k' <;> simp_all [dlookup]

theorem dlookup_mergeKeep (k : Key) (p : List (Key × Val)) : ∀ u : List (Key × Val),
    dlookup k (mergeKeep u p) = match dlookup k u, dlookup k p with
      | some uv, some pv => some (mergeVal uv pv)
      | some uv, none => some uv
      | none, _ => none := by
  intro u
  induction u with
  | nil => simp [mergeKeep, dlookup]
  | cons x u ih =>
    obtain ⟨a, v⟩ := x
    unfold mergeKeep
    by_cases ha : a = k
    · subst ha
      cases h : dlookup a p <;> simp [dlookup]
    · cases h : dlookup a p <;> simp [dlookup, ha, ih]

theorem mergeVal_dict (u p : List (Key × Val)) :
    mergeVal (.dict u) (.dict p) = .dict (mergeConfig u p) := by
  unfold mergeVal mergeConfig; rfl

theorem dlookup_merge (k : Key) (u p : List (Key × Val)) :
    dlookup k (mergeConfig u p) = match dlookup k u, dlookup k p with
      | some uv, some pv => some (mergeVal uv pv)
      | some uv, none => some uv
      | none, x => x := by
  unfold mergeConfig
  rw [dlookup_append, dlookup_mergeKeep, dlookup_filter k (fun k => !dhas k u)]
  unfold dhas
  cases dlookup k u <;> cases dlookup k p <;> simp

theorem mergeVal_nondict {u p : Val} (h : u.isDict = false ∨ p.isDict = false) : mergeVal u p = p := by
  unfold mergeVal
  cases u <;> cases p <;> simp_all [Val.isDict]

/-- Project leaves win. -/
theorem merge_project (path : List Key) : ∀ (u p v : Val), v.isDict = false →
    getPath p path = some v → getPath (mergeVal u p) path = some v := by
  induction path with
  | nil =>
    intro u p v hv h
    simp only [getPath, Option.some.injEq] at h
    subst h
    rw [mergeVal_nondict (.inr hv)]; rfl
  | cons k ks ih =>
    intro u p v hv h
    cases p with
    | dict pk =>
      cases u with
      | dict uk =>
        rw [mergeVal_dict]
        simp only [getPath] at h ⊢
        rw [dlookup_merge]
        cases hp : dlookup k pk with
        | none => rw [hp] at h; simp at h
        | some pv =>
          rw [hp] at h
          cases hu : dlookup k uk with
          | none => simpa using h
          | some uv => exact ih uv pv v hv h
      | _ => rw [mergeVal_nondict (.inl rfl)]; exact h
    | _ => simp [getPath] at h

/-- User values the project does not touch stay. -/
theorem merge_user (path : List Key) : ∀ (u p v : Val),
    getPath u path = some v → Untouched p path → getPath (mergeVal u p) path = some v := by
  induction path with
  | nil => intro u p v _ h; cases h
  | cons k ks ih =>
    intro u p v h hp
    cases u with
    | dict uk =>
      cases hp with
      | missing hm =>
        rw [mergeVal_dict]
        simp only [getPath] at h ⊢
        rw [dlookup_merge]
        cases hu : dlookup k uk with
        | none => rw [hu] at h; simp at h
        | some uv => rw [hu] at h; rw [hm]; exact h
      | deeper hm hd =>
        rw [mergeVal_dict]
        simp only [getPath] at h ⊢
        rw [dlookup_merge]
        cases hu : dlookup k uk with
        | none => rw [hu] at h; simp at h
        | some uv => rw [hu] at h; rw [hm]; exact ih uv _ v h hd
    | _ => simp [getPath] at h

/-- No other paths appear. -/
theorem merge_only (path : List Key) : ∀ (u p v : Val),
    getPath (mergeVal u p) path = some v →
      (getPath u path).isSome = true ∨ (getPath p path).isSome = true := by
  induction path with
  | nil => intro u p v _; left; simp [getPath]
  | cons k ks ih =>
    intro u p v h
    by_cases hd : u.isDict = false ∨ p.isDict = false
    · rw [mergeVal_nondict hd] at h
      right; rw [h]; rfl
    · cases u with
      | dict uk =>
        cases p with
        | dict pk =>
          rw [mergeVal_dict] at h
          simp only [getPath] at h ⊢
          rw [dlookup_merge] at h
          cases hu : dlookup k uk <;> cases hp : dlookup k pk <;> rw [hu, hp] at h
          · simp at h
          · right; simp only at h; simp only; rw [h]; rfl
          · left; simp only at h; simp only; rw [h]; rfl
          · simp only at h ⊢; exact ih _ _ _ h
        | _ => simp [Val.isDict] at hd
      | _ => simp [Val.isDict] at hd

theorem wfDict_mem {kvs : List (Key × Val)} (h : Val.WFDict kvs) : ∀ kv ∈ kvs, kv.2.WF := by
  induction kvs with
  | nil => intro kv hkv; cases hkv
  | cons x kvs ih =>
    intro kv hkv
    simp only [Val.WFDict] at h
    cases hkv with
    | head => exact h.1
    | tail _ hm => exact ih h.2 kv hm

theorem wfList_mem {xs : List Val} (h : Val.WFList xs) : ∀ x ∈ xs, x.WF := by
  induction xs with
  | nil => intro kv hkv; cases hkv
  | cons x xs ih =>
    intro y hy
    simp only [Val.WFList] at h
    cases hy with
    | head => exact h.1
    | tail _ hm => exact ih h.2 y hm

theorem mergeKeep_map (p : List (Key × Val)) : ∀ u : List (Key × Val),
    mergeKeep u p = u.map (fun kv => (kv.1, match dlookup kv.1 p with
      | some pv => mergeVal kv.2 pv
      | none => kv.2)) := by
  intro u
  induction u with
  | nil => simp [mergeKeep]
  | cons x u ih =>
    obtain ⟨a, v⟩ := x
    unfold mergeKeep
    cases h : dlookup a p <;> simp [ih, h]

theorem mergeVal_self : ∀ v : Val, v.WF → mergeVal v v = v := by
  intro v
  induction v using Val.ind with
  | hdict kvs ih =>
    intro hw
    simp only [Val.WF] at hw
    rw [mergeVal_dict]
    unfold mergeConfig
    have h1 : kvs.filter (fun kv => !dhas kv.1 kvs) = [] := by
      rw [List.filter_eq_nil_iff]
      intro kv hkv
      have : dhas kv.1 kvs = true := dhas_iff.2 (List.mem_map.2 ⟨kv, hkv, rfl⟩)
      simp [this]
    rw [h1, List.append_nil, mergeKeep_map]
    congr 1
    conv => rhs; rw [← List.map_id kvs]
    apply List.map_congr_left
    intro kv hkv
    rw [dlookup_of_mem (d := kvs) (k := kv.1) (v := kv.2) hw.1 hkv]
    simp only [id]
    rw [ih kv hkv (wfDict_mem hw.2 kv hkv)]
  | _ => intros; rfl

/-- merging twice is merging once -/
theorem mergeVal_idem : ∀ u p : Val, u.WF → p.WF → mergeVal (mergeVal u p) p = mergeVal u p := by
  intro u
  induction u using Val.ind with
  | hdict uk ih =>
    intro p hu hp
    cases p with
    | dict pk =>
      simp only [Val.WF] at hu hp
      rw [mergeVal_dict, mergeVal_dict]
      congr 1
      have h1 : pk.filter (fun kv => !dhas kv.1 (mergeConfig uk pk)) = [] := by
        rw [List.filter_eq_nil_iff]
        intro kv hkv
        have h2 : dlookup kv.1 pk = some kv.2 := dlookup_of_mem hp.1 hkv
        have : dhas kv.1 (mergeConfig uk pk) = true := by
          unfold dhas
          rw [dlookup_merge, h2]
          cases dlookup kv.1 uk <;> rfl
        simp [this]
      rw [show mergeConfig (mergeConfig uk pk) pk = mergeKeep (mergeConfig uk pk) pk ++
        pk.filter (fun kv => !dhas kv.1 (mergeConfig uk pk)) from rfl, h1, List.append_nil,
        mergeKeep_map]
      conv => rhs; rw [← List.map_id (mergeConfig uk pk)]
      apply List.map_congr_left
      intro kv hkv
      unfold mergeConfig at hkv
      rw [List.mem_append] at hkv
      rcases hkv with hkv | hkv
      · rw [mergeKeep_map, List.mem_map] at hkv
        obtain ⟨ukv, hukv, rfl⟩ := hkv
        simp only [id]
        cases hl : dlookup ukv.1 pk with
        | none => rfl
        | some pv =>
          simp only
          rw [ih ukv hukv pv (wfDict_mem hu.2 ukv hukv)
            (wfDict_mem hp.2 (ukv.1, pv) (dlookup_mem hl))]
      · rw [List.mem_filter] at hkv
        rw [dlookup_of_mem (d := pk) (k := kv.1) (v := kv.2) hp.1 hkv.1]
        simp only [id]
        rw [mergeVal_self _ (wfDict_mem hp.2 kv hkv.1)]
    | _ => rfl
  | _ =>
    intro p hu hp
    have e : ∀ u : Val, u.isDict = false → mergeVal (mergeVal u p) p = mergeVal u p := by
      intro u h
      rw [mergeVal_nondict (u := u) (p := p) (.inl h)]; exact mergeVal_self p hp
    exact e _ rfl

/-! ### template args -/

theorem templateArgStep_lookup (n : String) (k : Key) (v : Val) (acc : List (String × Val)) :
    dlookup n (templateArgStep k v acc) =
      if k = .str n ∧ settable n v = true then some v
      else dlookup n acc := by
  unfold templateArgStep
  cases k with
  | int i => simp
  | str s =>
    simp only [Key.str.injEq]
    have key : ∀ (c : Prop) [Decidable c] (m : String) (d : List (String × Val)),
        dlookup n (if c then dset m v d else d) = if c ∧ m = n then some v else dlookup n d := by
      intro c _ m d
      by_cases hc : c <;> simp [hc, dlookup_dset]
    simp only [key]
    by_cases hs : s = n
    · subst hs
      simp only [true_and]
      by_cases h : s = "ignore_checks" ∨ s = "regions" ∨ s = "append_rules" ∨ s = "override_spec" ∨
          s = "ignore_bad_template" ∨ s = "include_checks" ∨ s = "configure_rules"
      · rcases h with rfl | rfl | rfl | rfl | rfl | rfl | rfl <;>
          simp [settable, templateSettable]
      · simp only [not_or] at h
        obtain ⟨h1, h2, h3, h4, h5, h6, h7⟩ := h
        simp only [h1, h2, h3, h4, h5, h6, h7, false_and, if_false]
        have : settable s v = false := by
          unfold settable templateSettable
          simp [Ne.symm h1, Ne.symm h2, Ne.symm h3, Ne.symm h4, Ne.symm h5, Ne.symm h6, Ne.symm h7]
        simp [this]
    · simp only [hs, false_and, if_false]
      grind

theorem templateArgLoop_lookup (n : String) : ∀ (kvs : List (Key × Val)) (acc : List (String × Val)),
    (kvs.map Prod.fst).Nodup →
    dlookup n (templateArgLoop kvs acc) = match dlookup (Key.str n) kvs with
      | some v => if settable n v = true then some v else dlookup n acc
      | none => dlookup n acc := by
  classical
  intro kvs
  induction kvs with
  | nil => intro acc _; simp [templateArgLoop, dlookup]
  | cons x kvs ih =>
    intro acc hn
    obtain ⟨k, v⟩ := x
    simp only [List.map_cons, List.nodup_cons] at hn
    unfold templateArgLoop
    rw [ih _ hn.2, templateArgStep_lookup]
    simp only [dlookup]
    by_cases hk : k = .str n
    · subst hk
      rw [dlookup_none_iff.2 hn.1]
      simp
    · simp [hk]

end CfnLint
