import Verif.Model.Py
/- Lemmas about Python dictionaries as association lists. -/
namespace CfnLint
variable {α β : Type} [DecidableEq α]

theorem dlookup_dset (k k' : α) (v : β) : ∀ d : List (α × β),
    dlookup k' (dset k v d) = if k = k' then some v else dlookup k' d := by
  intro d
  induction d with
  | nil => simp [dset, dlookup]
  | cons x d ih =>
    obtain ⟨a, b⟩ := x
    simp only [dset]
    by_cases h1 : a = k
    · subst h1
      simp only [if_true, dlookup]
      by_cases h2 : a = k' <;> simp [h2]
    · simp only [h1, if_false, dlookup, ih]
      by_cases h2 : a = k'
      · subst h2; simp [Ne.symm h1]
      · simp [h2]

theorem dlookup_mem {k : α} {v : β} : ∀ {d : List (α × β)}, dlookup k d = some v → (k, v) ∈ d := by
  intro d
  induction d with
  | nil => simp [dlookup]
  | cons x d ih =>
    obtain ⟨a, b⟩ := x
    simp only [dlookup]
    split
    · next h => subst h; intro h; injection h with h; subst h; exact List.mem_cons_self
    · intro h; exact List.mem_cons_of_mem _ (ih h)

theorem dlookup_none_iff {k : α} : ∀ {d : List (α × β)},
    dlookup k d = none ↔ k ∉ d.map Prod.fst := by
  intro d
  induction d with
  | nil => simp [dlookup]
  | cons x d ih =>
    obtain ⟨a, b⟩ := x
    simp only [dlookup, List.map_cons, List.mem_cons, not_or]
    by_cases h : a = k
    · simp [h]
    · simp only [h, if_false, ih]; exact ⟨fun h' => ⟨fun e => h e.symm, h'⟩, fun h' => h'.2⟩

theorem dlookup_of_mem {k : α} {v : β} : ∀ {d : List (α × β)}, (d.map Prod.fst).Nodup →
    (k, v) ∈ d → dlookup k d = some v := by
  intro d
  induction d with
  | nil => simp
  | cons x d ih =>
    obtain ⟨a, b⟩ := x
    intro hn hm
    simp only [List.map_cons, List.nodup_cons] at hn
    simp only [dlookup]
    cases hm with
    | head => simp
    | tail _ h =>
      have : a ≠ k := by
        intro e; subst e; exact hn.1 (List.mem_map.2 ⟨_, h, rfl⟩)
      simp only [this, if_false]
      exact ih hn.2 h

theorem dset_keys (k : α) (v : β) : ∀ d : List (α × β),
    (dset k v d).map Prod.fst = if k ∈ d.map Prod.fst then d.map Prod.fst
      else d.map Prod.fst ++ [k] := by
  intro d
  induction d with
  | nil => simp [dset]
  | cons x d ih =>
    obtain ⟨a, b⟩ := x
    simp only [dset]
    by_cases h1 : a = k
    · simp [h1]
    · simp only [h1, if_false, List.map_cons, List.mem_cons, ih, Ne.symm h1, false_or]
      split <;> simp

theorem dset_nodup (k : α) (v : β) {d : List (α × β)} (h : (d.map Prod.fst).Nodup) :
    ((dset k v d).map Prod.fst).Nodup := by
  rw [dset_keys]
  split
  · exact h
  · next hk =>
    rw [List.nodup_append]
    refine ⟨h, by simp, ?_⟩
    intro a ha b hb
    simp only [List.mem_singleton] at hb
    subst hb
    intro e; subst e; exact hk ha

theorem dhas_iff {k : α} {d : List (α × β)} : dhas k d = true ↔ k ∈ d.map Prod.fst := by
  unfold dhas
  rw [Option.isSome_iff_ne_none, ne_eq, dlookup_none_iff, Decidable.not_not]

theorem dlookup_ddel (k k' : α) : ∀ {d : List (α × β)}, (d.map Prod.fst).Nodup →
    dlookup k' (ddel k d) = if k = k' then none else dlookup k' d := by
  intro d
  induction d with
  | nil => simp [ddel, dlookup]
  | cons x d ih =>
    obtain ⟨a, b⟩ := x
    intro hn
    simp only [List.map_cons, List.nodup_cons] at hn
    simp only [ddel]
    by_cases h1 : a = k
    · subst h1
      simp only [if_true, dlookup]
      by_cases h2 : a = k'
      · subst h2; simp [dlookup_none_iff.2 hn.1]
      · simp [h2]
    · simp only [h1, if_false, dlookup, ih hn.2]
      by_cases h2 : a = k'
      · subst h2; simp [Ne.symm h1]
      · simp [h2]

end CfnLint
