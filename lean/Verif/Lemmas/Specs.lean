import Verif.Model.Specs
import Verif.Spec.Specs
import Verif.Lemmas.Dict
import Verif.Lemmas.Config
/-
Lemmas about merging overrides.
-/
namespace CfnLint
open Spec

theorem mergeSpec_cons {k : Key} {v : Val} {rest d r : List (Key × Val)} (h : mergeSpec ((k, v) :: rest) d = .ok r) :
    ∃ n, mergeSpecVal v (dlookup k d) = .ok n ∧ mergeSpec rest (dset k n d) = .ok r := by
  rw [mergeSpec] at h
  split at h
  · cases h
  · rename_i n hn
    exact ⟨n, hn, h⟩

/-- Keys of the override hold the merged value, other keys are untouched. -/
theorem mergeSpec_lookup : ∀ {s d r : List (Key × Val)}, (s.map Prod.fst).Nodup → mergeSpec s d = .ok r →
    (∀ k v, (k, v) ∈ s → ∃ n, mergeSpecVal v (dlookup k d) = .ok n ∧ dlookup k r = some n) ∧
    (∀ k, k ∉ s.map Prod.fst → dlookup k r = dlookup k d) := by
  intro s
  induction s with
  | nil =>
    intro d r _ h
    rw [mergeSpec] at h
    cases h
    exact ⟨fun k v hm => (by cases hm), fun k _ => rfl⟩
  | cons kv rest ih =>
    intro d r hnd h
    obtain ⟨k, v⟩ := kv
    obtain ⟨n, hn, hr⟩ := mergeSpec_cons h
    simp only [List.map_cons, List.nodup_cons] at hnd
    obtain ⟨h1, h2⟩ := ih hnd.2 hr
    have hkr : dlookup k r = some n := by
      rw [h2 k hnd.1, dlookup_dset]; simp
    refine ⟨?_, ?_⟩
    · intro k' v' hm
      rcases List.mem_cons.1 hm with heq | hm'
      · cases heq
        exact ⟨n, hn, hkr⟩
      · obtain ⟨n', hn', hl'⟩ := h1 k' v' hm'
        have hne : k' ≠ k := by
          intro he
          subst he
          exact hnd.1 (List.mem_map_of_mem (f := Prod.fst) hm')
        rw [dlookup_dset, if_neg (Ne.symm hne)] at hn'
        exact ⟨n', hn', hl'⟩
    · intro k' hk'
      simp only [List.map_cons, List.mem_cons, not_or] at hk'
      rw [h2 k' hk'.2, dlookup_dset, if_neg (Ne.symm hk'.1)]

theorem mergeSpec_nodup : ∀ {s d r : List (Key × Val)}, mergeSpec s d = .ok r → (d.map Prod.fst).Nodup →
    (r.map Prod.fst).Nodup := by
  intro s
  induction s with
  | nil => intro d r h hd; rw [mergeSpec] at h; cases h; exact hd
  | cons kv rest ih =>
    intro d r h hd
    obtain ⟨k, v⟩ := kv
    obtain ⟨n, _, hr⟩ := mergeSpec_cons h
    exact ih hr (dset_nodup k n hd)

theorem mergeSpecVal_leaf {v n : Val} {x : Option Val} (hl : IsLeaf v) (h : mergeSpecVal v x = .ok n) : n = v := by
  cases v with
  | dict d => exact absurd rfl (hl d)
  | none => rw [mergeSpecVal] at h <;> first | (cases h; rfl) | (intros; simp_all)
  | bool => rw [mergeSpecVal] at h <;> first | (cases h; rfl) | (intros; simp_all)
  | int => rw [mergeSpecVal] at h <;> first | (cases h; rfl) | (intros; simp_all)
  | flt => rw [mergeSpecVal] at h <;> first | (cases h; rfl) | (intros; simp_all)
  | str => rw [mergeSpecVal] at h <;> first | (cases h; rfl) | (intros; simp_all)
  | list => rw [mergeSpecVal] at h <;> first | (cases h; rfl) | (intros; simp_all)

theorem mergeSpecVal_leaf_eq {v : Val} (x : Option Val) (hl : IsLeaf v) : mergeSpecVal v x = .ok v := by
  cases v with
  | dict d => exact absurd rfl (hl d)
  | none => cases x <;> simp [mergeSpecVal]
  | bool => cases x <;> simp [mergeSpecVal]
  | int => cases x <;> simp [mergeSpecVal]
  | flt => cases x <;> simp [mergeSpecVal]
  | str => cases x <;> simp [mergeSpecVal]
  | list => cases x <;> simp [mergeSpecVal]

/-- An object of the override is merged into nothing, into an object, or is empty. -/
theorem mergeSpecVal_dict {sub : List (Key × Val)} {x : Option Val} {n : Val} (h : mergeSpecVal (.dict sub) x = .ok n) :
    (x = none ∧ ∃ m, mergeSpec sub [] = .ok m ∧ n = .dict m) ∨
    (∃ old, x = some (.dict old) ∧ ∃ m, mergeSpec sub old = .ok m ∧ n = .dict m) ∨
    (sub = [] ∧ ∃ y, x = some y ∧ IsLeaf y ∧ n = y) := by
  cases x with
  | none =>
    left
    rw [mergeSpecVal] at h
    split at h
    · cases h
    · rename_i m hm; cases h; exact ⟨rfl, m, hm, rfl⟩
  | some y =>
    right
    cases y with
    | dict old =>
      left
      rw [mergeSpecVal] at h
      split at h
      · cases h
      · rename_i m hm; cases h; exact ⟨old, rfl, m, hm, rfl⟩
    | none => right; cases sub with
      | nil => simp [mergeSpecVal] at h; exact ⟨rfl, _, rfl, (by intro d hd; cases hd), h.symm⟩
      | cons => simp [mergeSpecVal] at h
    | bool => right; cases sub with
      | nil => simp [mergeSpecVal] at h; exact ⟨rfl, _, rfl, (by intro d hd; cases hd), h.symm⟩
      | cons => simp [mergeSpecVal] at h
    | int => right; cases sub with
      | nil => simp [mergeSpecVal] at h; exact ⟨rfl, _, rfl, (by intro d hd; cases hd), h.symm⟩
      | cons => simp [mergeSpecVal] at h
    | flt => right; cases sub with
      | nil => simp [mergeSpecVal] at h; exact ⟨rfl, _, rfl, (by intro d hd; cases hd), h.symm⟩
      | cons => simp [mergeSpecVal] at h
    | str => right; cases sub with
      | nil => simp [mergeSpecVal] at h; exact ⟨rfl, _, rfl, (by intro d hd; cases hd), h.symm⟩
      | cons => simp [mergeSpecVal] at h
    | list => right; cases sub with
      | nil => simp [mergeSpecVal] at h; exact ⟨rfl, _, rfl, (by intro d hd; cases hd), h.symm⟩
      | cons => simp [mergeSpecVal] at h

theorem dset_same {k : Key} {v : Val} : ∀ {d : List (Key × Val)}, dlookup k d = some v → dset k v d = d := by
  intro d
  induction d with
  | nil => intro h; cases h
  | cons kv rest ih =>
    intro h
    obtain ⟨k', v'⟩ := kv
    simp only [dlookup] at h
    simp only [dset]
    split at h
    · rename_i he; cases h; simp_all
    · rename_i he; simp [he, ih h]

theorem dset_dset {k : Key} {v v' : Val} : ∀ {d : List (Key × Val)}, dset k v' (dset k v d) = dset k v' d := by
  intro d
  induction d with
  | nil => simp [dset]
  | cons kv rest ih =>
    obtain ⟨k', v''⟩ := kv
    by_cases he : k' = k
    · simp [dset, he]
    · simp [dset, he, ih]

theorem mergeSpecVal_empty {y : Val} (hy : IsLeaf y) : mergeSpecVal (.dict []) (some y) = .ok y := by
  cases y with
  | dict d => exact absurd rfl (hy d)
  | none => simp [mergeSpecVal]
  | bool => simp [mergeSpecVal]
  | int => simp [mergeSpecVal]
  | flt => simp [mergeSpecVal]
  | str => simp [mergeSpecVal]
  | list => simp [mergeSpecVal]

/-- A dictionary that already holds every merged value is left alone. -/
theorem mergeSpec_fix : ∀ {s r : List (Key × Val)},
    (∀ kv ∈ s, ∃ n, dlookup kv.1 r = some n ∧ mergeSpecVal kv.2 (some n) = .ok n) → mergeSpec s r = .ok r := by
  intro s
  induction s with
  | nil => intro r _; rw [mergeSpec]
  | cons kv rest ih =>
    intro r h
    obtain ⟨k, v⟩ := kv
    obtain ⟨n, hl, hn⟩ := h (k, v) (List.mem_cons_self ..)
    simp only at hl hn
    rw [mergeSpec, hl, hn]
    simp only
    rw [dset_same hl]
    exact ih (fun kv hkv => h kv (List.mem_cons_of_mem _ hkv))

theorem mergeSpecVal_again (v : Val) : v.WF → ∀ x n, mergeSpecVal v x = .ok n → mergeSpecVal v (some n) = .ok n := by
  refine Val.ind (P := fun v => v.WF → ∀ x n, mergeSpecVal v x = .ok n → mergeSpecVal v (some n) = .ok n) ?_ ?_ ?_ ?_ ?_ ?_ ?_ v
  · intro _ x n h; rw [mergeSpecVal_leaf (by intro d hd; cases hd) h]; simp [mergeSpecVal]
  · intro _ _ x n h; rw [mergeSpecVal_leaf (by intro d hd; cases hd) h]; simp [mergeSpecVal]
  · intro _ _ x n h; rw [mergeSpecVal_leaf (by intro d hd; cases hd) h]; simp [mergeSpecVal]
  · intro _ _ x n h; rw [mergeSpecVal_leaf (by intro d hd; cases hd) h]; simp [mergeSpecVal]
  · intro _ _ x n h; rw [mergeSpecVal_leaf (by intro d hd; cases hd) h]; simp [mergeSpecVal]
  · intro _ _ _ x n h; rw [mergeSpecVal_leaf (by intro d hd; cases hd) h]; simp [mergeSpecVal]
  · intro sub ih hwf x n h
    simp only [Val.WF] at hwf
    have key : ∀ d m, mergeSpec sub d = .ok m → mergeSpec sub m = .ok m := by
      intro d m hm
      apply mergeSpec_fix
      intro kv hkv
      obtain ⟨n', hn', hl'⟩ := (mergeSpec_lookup hwf.1 hm).1 kv.1 kv.2 hkv
      exact ⟨n', hl', ih kv hkv (wfDict_mem hwf.2 kv hkv) _ _ hn'⟩
    rcases mergeSpecVal_dict h with ⟨_, m, hm, rfl⟩ | ⟨old, _, m, hm, rfl⟩ | ⟨rfl, y, _, hy, rfl⟩
    · rw [mergeSpecVal, key _ _ hm]
    · rw [mergeSpecVal, key _ _ hm]
    · cases n with
      | dict d => exact absurd rfl (hy d)
      | none => simp [mergeSpecVal]
      | bool => simp [mergeSpecVal]
      | int => simp [mergeSpecVal]
      | flt => simp [mergeSpecVal]
      | str => simp [mergeSpecVal]
      | list => simp [mergeSpecVal]

/-- Merging into nothing always succeeds. -/
theorem mergeSpecVal_none (v : Val) : v.WF → ∃ n, mergeSpecVal v none = .ok n := by
  refine Val.ind (P := fun v => v.WF → ∃ n, mergeSpecVal v none = .ok n) ?_ ?_ ?_ ?_ ?_ ?_ ?_ v
  · intro _; exact ⟨_, mergeSpecVal_leaf_eq none (by intro d hd; cases hd)⟩
  · intro _ _; exact ⟨_, mergeSpecVal_leaf_eq none (by intro d hd; cases hd)⟩
  · intro _ _; exact ⟨_, mergeSpecVal_leaf_eq none (by intro d hd; cases hd)⟩
  · intro _ _; exact ⟨_, mergeSpecVal_leaf_eq none (by intro d hd; cases hd)⟩
  · intro _ _; exact ⟨_, mergeSpecVal_leaf_eq none (by intro d hd; cases hd)⟩
  · intro _ _ _; exact ⟨_, mergeSpecVal_leaf_eq none (by intro d hd; cases hd)⟩
  · intro sub ih hwf
    simp only [Val.WF] at hwf
    have key : ∀ (s d : List (Key × Val)), (∀ kv ∈ s, kv ∈ sub) → (s.map Prod.fst).Nodup →
        (∀ k ∈ s.map Prod.fst, dlookup k d = none) → ∃ m, mergeSpec s d = .ok m := by
      intro s
      induction s with
      | nil => intro d _ _ _; exact ⟨d, by rw [mergeSpec]⟩
      | cons kv rest ihs =>
        intro d hs hnd hfree
        obtain ⟨k, v⟩ := kv
        simp only [List.map_cons, List.nodup_cons] at hnd
        have hkv := hs (k, v) (List.mem_cons_self ..)
        obtain ⟨n, hn⟩ := ih (k, v) hkv (wfDict_mem hwf.2 _ hkv)
        simp only at hn
        rw [mergeSpec, hfree k (by simp), hn]
        simp only
        apply ihs _ (fun kv h => hs kv (List.mem_cons_of_mem _ h)) hnd.2
        intro k' hk'
        have hne : k' ≠ k := by intro he; subst he; exact hnd.1 hk'
        rw [dlookup_dset, if_neg (Ne.symm hne)]
        exact hfree k' (by simp only [List.map_cons]; exact List.mem_cons_of_mem _ hk')
    obtain ⟨m, hm⟩ := key sub [] (fun _ h => h) hwf.1 (fun _ _ => rfl)
    exact ⟨.dict m, by rw [mergeSpecVal, hm]⟩

theorem filter_dset_out {keep : Key → Bool} {k : Key} {v : Val} (hk : keep k = false) : ∀ {d : List (Key × Val)},
    (dset k v d).filter (fun kv => keep kv.1) = d.filter (fun kv => keep kv.1) := by
  intro d
  induction d with
  | nil => simp [dset, hk]
  | cons kv rest ih =>
    obtain ⟨k', v'⟩ := kv
    simp only [dset]
    split
    · rename_i he; subst he; simp [hk]
    · simp only [List.filter_cons, ih]

/-- Merging again after a filter only brings back what the filter removed. -/
theorem mergeSpec_filter {keep : Key → Bool} : ∀ {s d : List (Key × Val)}, (s.map Prod.fst).Nodup →
    (∀ kv ∈ s, kv.2.WF) →
    (∀ kv ∈ s, keep kv.1 = true → ∃ n, dlookup kv.1 d = some n ∧ mergeSpecVal kv.2 (some n) = .ok n) →
    (∀ kv ∈ s, keep kv.1 = false → dlookup kv.1 d = none) →
    ∃ r, mergeSpec s d = .ok r ∧ r.filter (fun kv => keep kv.1) = d.filter (fun kv => keep kv.1) := by
  intro s
  induction s with
  | nil => intro d _ _ _ _; exact ⟨d, by rw [mergeSpec], rfl⟩
  | cons kv rest ih =>
    intro d hnd hwf h1 h2
    obtain ⟨k, v⟩ := kv
    simp only [List.map_cons, List.nodup_cons] at hnd
    cases hk : keep k with
    | true =>
      obtain ⟨n, hl, hn⟩ := h1 (k, v) (List.mem_cons_self ..) hk
      simp only at hl hn
      rw [mergeSpec, hl, hn]
      simp only
      rw [dset_same hl]
      exact ih hnd.2 (fun kv h => hwf kv (List.mem_cons_of_mem _ h)) (fun kv h => h1 kv (List.mem_cons_of_mem _ h))
        (fun kv h => h2 kv (List.mem_cons_of_mem _ h))
    | false =>
      have hl := h2 (k, v) (List.mem_cons_self ..) hk
      simp only at hl
      obtain ⟨n, hn⟩ := mergeSpecVal_none v (hwf (k, v) (List.mem_cons_self ..))
      rw [mergeSpec, hl, hn]
      simp only
      have hne : ∀ kv ∈ rest, kv.1 ≠ k := by
        intro kv h he
        exact hnd.1 (he ▸ List.mem_map_of_mem (f := Prod.fst) h)
      obtain ⟨r, hr, hf⟩ := ih (d := dset k n d) hnd.2 (fun kv h => hwf kv (List.mem_cons_of_mem _ h))
        (fun kv h hkeep => by
          rw [dlookup_dset, if_neg (Ne.symm (hne kv h))]
          exact h1 kv (List.mem_cons_of_mem _ h) hkeep)
        (fun kv h hkeep => by
          rw [dlookup_dset, if_neg (Ne.symm (hne kv h))]
          exact h2 kv (List.mem_cons_of_mem _ h) hkeep)
      exact ⟨r, hr, by rw [hf, filter_dset_out hk]⟩

theorem dlookup_filter_keys {keep : Key → Bool} {k : Key} : ∀ {d : List (Key × Val)},
    dlookup k (d.filter (fun kv => keep kv.1)) = if keep k then dlookup k d else none := by
  intro d
  induction d with
  | nil => simp [dlookup]
  | cons kv rest ih =>
    obtain ⟨k', v'⟩ := kv
    simp only [List.filter_cons]
    by_cases hkk : k' = k
    · subst hkk
      cases hk : keep k' <;> simp_all [dlookup]
    · cases hk : keep k' <;> simp_all [dlookup]

/-- Repeated removal leaves what no pattern matches, as a set. -/
theorem foldl_erase_mem {x : String} : ∀ (ms res : List String), (∀ y, ms.count y ≤ res.count y) →
    (x ∈ ms.foldl (fun r y => r.erase y) res ↔ ms.count x < res.count x) := by
  intro ms
  induction ms with
  | nil => intro res _; simp [List.count_pos_iff]
  | cons m ms ih =>
    intro res h
    simp only [List.foldl_cons]
    rw [ih]
    · rw [List.count_erase, List.count_cons]
      by_cases hmx : m = x
      · subst hmx
        have := h m
        simp only [List.count_cons_self] at this
        simp; omega
      · simp [hmx]
    · intro y
      have := h y
      rw [List.count_cons] at this
      rw [List.count_erase]
      by_cases hmy : m = y
      · subst hmy; simp at this ⊢; omega
      · simp [hmy] at this ⊢; exact this

theorem count_filter_le (m : String → Bool) (res : List String) (y : String) : (res.filter m).count y ≤ res.count y :=
  (List.filter_sublist (p := m) (l := res)).count_le y

theorem excludeStep_mem {m : String → Bool} {x : String} {res : List String} :
    x ∈ (res.filter m).foldl (fun r y => r.erase y) res ↔ x ∈ res ∧ m x = false := by
  rw [foldl_erase_mem _ _ (count_filter_le m res)]
  cases hm : m x with
  | true =>
    rw [List.count_filter hm]; simp
  | false =>
    have : (res.filter m).count x = 0 := by
      rw [List.count_eq_zero]; intro h; rw [List.mem_filter] at h; simp [hm] at h
    rw [this, List.count_pos_iff]; simp

theorem excludeTypes_mem {rx : String → Option (String → Bool)} {x : String} : ∀ {ps res out : List String},
    excludeTypes rx ps res = .ok out →
    (x ∈ out ↔ x ∈ res ∧ ∀ p ∈ ps, ∀ m, rx (typePattern p) = some m → m x = false) := by
  intro ps
  induction ps with
  | nil => intro res out h; rw [excludeTypes] at h; cases h; simp
  | cons p ps ih =>
    intro res out h
    rw [excludeTypes] at h
    split at h
    · cases h
    · rename_i m hm
      rw [ih h, excludeStep_mem]
      constructor
      · rintro ⟨⟨h1, h2⟩, h3⟩
        refine ⟨h1, ?_⟩
        intro q hq m' hm'
        rcases List.mem_cons.1 hq with rfl | hq
        · rw [hm] at hm'; cases hm'; exact h2
        · exact h3 q hq m' hm'
      · rintro ⟨h1, h2⟩
        exact ⟨⟨h1, h2 p (List.mem_cons_self ..) m hm⟩, fun q hq => h2 q (List.mem_cons_of_mem _ hq)⟩

theorem includeTypes_mem {rx : String → Option (String → Bool)} {all : List String} {x : String} :
    ∀ {ps out : List String}, includeTypes rx all ps = .ok out →
    (x ∈ out ↔ x ∈ all ∧ ∃ p ∈ ps, ∃ m, rx (typePattern p) = some m ∧ m x = true) := by
  intro ps
  induction ps with
  | nil => intro out h; rw [includeTypes] at h; cases h; simp
  | cons p ps ih =>
    intro out h
    rw [includeTypes] at h
    split at h
    · cases h
    · rename_i m hm
      split at h
      · cases h
      · rename_i r hr
        cases h
        rw [List.mem_append, List.mem_filter, ih hr]
        constructor
        · rintro (⟨h1, h2⟩ | ⟨h1, q, hq, h2⟩)
          · exact ⟨h1, p, List.mem_cons_self .., m, hm, h2⟩
          · exact ⟨h1, q, List.mem_cons_of_mem _ hq, h2⟩
        · rintro ⟨h1, q, hq, m', hm', h2⟩
          rcases List.mem_cons.1 hq with rfl | hq
          · rw [hm] at hm'; cases hm'; exact Or.inl ⟨h1, h2⟩
          · exact Or.inr ⟨h1, q, hq, m', hm', h2⟩

/-- the errors of the two loops do not depend on the lists of types -/
theorem excludeTypes_ok {rx : String → Option (String → Bool)} : ∀ {ps res out : List String},
    excludeTypes rx ps res = .ok out → ∀ res', ∃ out', excludeTypes rx ps res' = .ok out' := by
  intro ps
  induction ps with
  | nil => intro res out _ res'; exact ⟨res', by rw [excludeTypes]⟩
  | cons p ps ih =>
    intro res out h res'
    rw [excludeTypes] at h ⊢
    split at h
    · cases h
    · rename_i m hm
      exact ih h _

theorem includeTypes_ok {rx : String → Option (String → Bool)} {all all' : List String} : ∀ {ps out : List String},
    includeTypes rx all ps = .ok out → ∃ out', includeTypes rx all' ps = .ok out' := by
  intro ps
  induction ps with
  | nil => intro out _; exact ⟨[], by rw [includeTypes]⟩
  | cons p ps ih =>
    intro out h
    rw [includeTypes] at h ⊢
    split at h
    · cases h
    · rename_i m hm
      split at h
      · cases h
      · rename_i r hr
        obtain ⟨r', hr'⟩ := ih hr
        exact ⟨all'.filter m ++ r', by rw [hr']⟩

theorem typeNames_mem {s : String} {d : List (Key × Val)} : s ∈ typeNames d ↔ Key.str s ∈ d.map Prod.fst := by
  induction d with
  | nil => simp [typeNames]
  | cons kv rest ih =>
    obtain ⟨k, v⟩ := kv
    simp only [typeNames] at ih ⊢
    cases k <;> simp_all [eq_comm]

end CfnLint
