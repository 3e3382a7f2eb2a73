import Verif.Spec.Convert
/-
C39: node conversion preserves values.
-/
namespace CfnLint
open Spec

theorem PVal.ind {P : PVal → Prop}
    (hnone : P .none) (hbool : ∀ b, P (.bool b)) (hint : ∀ i, P (.int i)) (hflt : ∀ r, P (.flt r))
    (hstr : ∀ mk s, P (.str mk s))
    (hlist : ∀ mk xs, (∀ x ∈ xs, P x) → P (.list mk xs))
    (hdict : ∀ mk kvs, (∀ kv ∈ kvs, P kv.2) → P (.dict mk kvs)) : ∀ v, P v := by
  intro v
  refine PVal.rec (motive_1 := P) (motive_2 := fun xs => ∀ x ∈ xs, P x)
    (motive_3 := fun kvs => ∀ kv ∈ kvs, P kv.2) (motive_4 := fun kv => P kv.2)
    hnone hbool hint hflt hstr hlist hdict ?_ ?_ ?_ ?_ ?_ v
  · intro x hx; cases hx
  · intro x xs hx hxs y hy
    cases hy with
    | head => exact hx
    | tail _ h => exact hxs y h
  · intro x hx; cases hx
  · intro x xs hx hxs y hy
    cases hy with
    | head => exact hx
    | tail _ h => exact hxs y h
  · intro k v h; exact h

/-- the key values of a dictionary -/
def pkeys (d : List (MKey × PVal)) : List Key := d.map (fun kx => kx.1.key)

theorem pdel_notin {k : Key} : ∀ {d : List (MKey × PVal)}, k ∉ pkeys d → pdel k d = d := by
  intro d
  induction d with
  | nil => intro _; rfl
  | cons e rest ih =>
    intro h
    obtain ⟨k', v'⟩ := e
    simp only [pkeys, List.map_cons, List.mem_cons, not_or] at h
    simp only [pdel, if_neg (Ne.symm h.1)]
    rw [ih h.2]

theorem pset_notin {k : MKey} {v : PVal} : ∀ {d : List (MKey × PVal)}, k.key ∉ pkeys d → pset k v d = d ++ [(k, v)] := by
  intro d
  induction d with
  | nil => intro _; rfl
  | cons e rest ih =>
    intro h
    obtain ⟨k', v'⟩ := e
    simp only [pkeys, List.map_cons, List.mem_cons, not_or] at h
    simp only [pset, if_neg (Ne.symm h.1), List.cons_append]
    rw [ih h.2]

theorem pdel_keys {k x : Key} : ∀ {d : List (MKey × PVal)}, (pkeys d).Nodup → (x ∈ pkeys (pdel k d) ↔ x ∈ pkeys d ∧ x ≠ k) := by
  intro d
  induction d with
  | nil => intro _; simp [pdel, pkeys]
  | cons e rest ih =>
    intro h
    obtain ⟨k', v'⟩ := e
    simp only [pkeys, List.map_cons, List.nodup_cons] at h
    simp only [pdel]
    split
    · rename_i he
      subst he
      simp only [pkeys, List.map_cons, List.mem_cons]
      constructor
      · intro hx; exact ⟨Or.inr hx, by rintro rfl; exact h.1 hx⟩
      · rintro ⟨rfl | hx, hne⟩
        · exact absurd rfl hne
        · exact hx
    · rename_i he
      have := ih h.2
      simp only [pkeys] at this
      simp only [pkeys, List.map_cons, List.mem_cons, this]
      constructor
      · rintro (rfl | ⟨hx, hne⟩)
        · exact ⟨Or.inl rfl, he⟩
        · exact ⟨Or.inr hx, hne⟩
      · rintro ⟨rfl | hx, hne⟩
        · exact Or.inl rfl
        · exact Or.inr ⟨hx, hne⟩

theorem pdel_sub {k : Key} : ∀ {d : List (MKey × PVal)}, ∀ e ∈ pdel k d, e ∈ d := by
  intro d
  induction d with
  | nil => intro e he; cases he
  | cons e rest ih =>
    intro e' he'
    obtain ⟨k', v'⟩ := e
    simp only [pdel] at he'
    split at he'
    · exact List.mem_cons_of_mem _ he'
    · rcases List.mem_cons.1 he' with rfl | h
      · exact List.mem_cons_self ..
      · exact List.mem_cons_of_mem _ (ih _ h)

theorem pdel_nodup {k : Key} : ∀ {d : List (MKey × PVal)}, (pkeys d).Nodup → (pkeys (pdel k d)).Nodup := by
  intro d
  induction d with
  | nil => intro h; exact h
  | cons e rest ih =>
    intro h
    obtain ⟨k', v'⟩ := e
    have hfull := h
    simp only [pkeys, List.map_cons, List.nodup_cons] at h
    simp only [pdel]
    split
    · exact h.2
    · simp only [pkeys, List.map_cons, List.nodup_cons]
      refine ⟨?_, ih h.2⟩
      intro hm
      have := (pdel_keys h.2).1 hm
      exact h.1 this.1

theorem pset_mem {k : MKey} {v : PVal} : ∀ {d : List (MKey × PVal)}, ∀ e ∈ pset k v d,
    e ∈ d ∨ (e.2 = v ∧ (e.1 = k ∨ ((∃ v', (e.1, v') ∈ d) ∧ e.1.key = k.key))) := by
  intro d
  induction d with
  | nil => intro e he; simp only [pset, List.mem_singleton] at he; subst he; exact Or.inr ⟨rfl, Or.inl rfl⟩
  | cons e rest ih =>
    intro e' he'
    obtain ⟨k', v'⟩ := e
    simp only [pset] at he'
    split at he'
    · rename_i hk
      rcases List.mem_cons.1 he' with rfl | h
      · exact Or.inr ⟨rfl, Or.inr ⟨⟨v', List.mem_cons_self ..⟩, hk⟩⟩
      · exact Or.inl (List.mem_cons_of_mem _ h)
    · rcases List.mem_cons.1 he' with rfl | h
      · exact Or.inl (List.mem_cons_self ..)
      · rcases ih _ h with h | ⟨h1, h2 | ⟨⟨v'', h2⟩, h3⟩⟩
        · exact Or.inl (List.mem_cons_of_mem _ h)
        · exact Or.inr ⟨h1, Or.inl h2⟩
        · exact Or.inr ⟨h1, Or.inr ⟨⟨v'', List.mem_cons_of_mem _ h2⟩, h3⟩⟩

theorem pset_keys {k : MKey} {v : PVal} {d : List (MKey × PVal)} :
    pkeys (pset k v d) = if k.key ∈ pkeys d then pkeys d else pkeys d ++ [k.key] := by
  induction d with
  | nil => simp [pset, pkeys]
  | cons e rest ih =>
    obtain ⟨k', v'⟩ := e
    simp only [pset]
    by_cases hk : k'.key = k.key
    · simp [hk, pkeys]
    · simp only [if_neg hk]
      simp only [pkeys] at ih
      simp only [pkeys, List.map_cons, ih, List.mem_cons, Ne.symm hk, false_or]
      split <;> rename_i h <;> simp only [h, if_true, if_false, List.cons_append]

theorem pset_nodup {k : MKey} {v : PVal} {d : List (MKey × PVal)} (h : (pkeys d).Nodup) : (pkeys (pset k v d)).Nodup := by
  rw [pset_keys]
  split
  · exact h
  · rename_i hk
    rw [List.nodup_append]
    refine ⟨h, by simp, ?_⟩
    intro a ha b hb
    simp only [List.mem_singleton] at hb
    subst hb
    rintro rfl
    exact hk ha

/-- With text keys, the loop leaves the entries in order under their new keys. -/
theorem rekey_text : ∀ (todo : List (MKey × PVal)) (pairs : List (MKey × MKey × PVal)) (done : List (MKey × PVal)),
    pairs.map Prod.fst = todo.map Prod.fst → (∀ e ∈ pairs, e.2.1.key = e.1.key) → (pkeys (todo ++ done)).Nodup →
    pairs.foldl rekeyStep (todo ++ done) = done ++ pairs.map Prod.snd := by
  intro todo
  induction todo with
  | nil =>
    intro pairs done hp _ _
    cases pairs with
    | nil => simp
    | cons => cases hp
  | cons e todo ih =>
    intro pairs done hp hk hnd
    cases pairs with
    | nil => cases hp
    | cons pr pairs =>
      obtain ⟨k, v⟩ := e
      obtain ⟨k0, nk, cv⟩ := pr
      simp only [List.map_cons, List.cons.injEq] at hp
      obtain ⟨rfl, hp⟩ := hp
      have hnk : nk.key = k0.key := hk (k0, nk, cv) (List.mem_cons_self ..)
      have hnd' : k0.key ∉ pkeys (todo ++ done) ∧ (pkeys (todo ++ done)).Nodup := by
        simpa only [pkeys, List.cons_append, List.map_cons, List.nodup_cons] using hnd
      simp only [List.foldl_cons, List.cons_append]
      have hstep : rekeyStep ((k0, v) :: (todo ++ done)) (k0, nk, cv) = todo ++ (done ++ [(nk, cv)]) := by
        simp only [rekeyStep, pdel, if_true]
        rw [pset_notin (by rw [hnk]; exact hnd'.1)]
        simp
      rw [hstep, ih pairs (done ++ [(nk, cv)]) hp (fun e he => hk e (List.mem_cons_of_mem _ he)) ?_]
      · simp
      · simp only [pkeys, ← List.append_assoc, List.map_append, List.map_cons, List.map_nil, hnk] at hnd' ⊢
        rw [List.nodup_append]
        refine ⟨by simpa using hnd'.2, by simp, ?_⟩
        intro a ha b hb
        simp only [List.mem_singleton] at hb
        subst hb
        rintro rfl
        exact hnd'.1 (by simpa using ha)

/-- Whatever the keys, the loop ends with processed entries only, and without double keys. -/
theorem rekey_inv {Q : MKey → PVal → Prop} (hQ : ∀ k k' v v', Q k v → Q k' v' → Q k v') :
    ∀ (pairs : List (MKey × MKey × PVal)) (d : List (MKey × PVal)),
    (∀ e ∈ pairs, Q e.2.1 e.2.2) → (pkeys d).Nodup →
    (∀ e ∈ d, Q e.1 e.2 ∨ e.1.key ∈ pairs.map (fun p => p.1.key)) →
    (∀ e ∈ pairs.foldl rekeyStep d, Q e.1 e.2) ∧ (pkeys (pairs.foldl rekeyStep d)).Nodup := by
  intro pairs
  induction pairs with
  | nil =>
    intro d _ hnd hd
    refine ⟨?_, hnd⟩
    intro e he
    rcases hd e he with h | h
    · exact h
    · simp at h
  | cons pr pairs ih =>
    intro d hpairs hnd hd
    obtain ⟨k0, nk, cv⟩ := pr
    simp only [List.foldl_cons]
    have hnew := hpairs (k0, nk, cv) (List.mem_cons_self ..)
    simp only at hnew
    apply ih _ (fun e he => hpairs e (List.mem_cons_of_mem _ he)) (pset_nodup (pdel_nodup hnd))
    intro e he
    have hrest : ∀ e' ∈ pdel k0.key d, Q e'.1 e'.2 ∨ e'.1.key ∈ pairs.map (fun p => p.1.key) := by
      intro e' he'
      rcases hd e' (pdel_sub _ he') with h | h
      · exact Or.inl h
      · simp only [List.map_cons, List.mem_cons] at h
        rcases h with h | h
        · have := (pdel_keys (x := e'.1.key) (k := k0.key) hnd).1 (List.mem_map.2 ⟨e', he', rfl⟩)
          exact absurd h this.2
        · exact Or.inr h
    rcases pset_mem _ he with h | ⟨h1, h2 | ⟨⟨v', h2⟩, h3⟩⟩
    · exact hrest _ h
    · left; rw [h1, h2]; exact hnew
    · rcases hrest _ h2 with h | h
      · left; rw [h1]; exact hQ _ _ _ _ h hnew
      · right; exact h

theorem convertPairs_eq (m : Span) : ∀ kvs : List (MKey × PVal), convertPairs m kvs = kvs.map (fun e =>
    (e.1, ⟨.str (strOfKey e.1.key), some (keyMark m e.1)⟩, convertDict (keyMark m e.1) e.2)) := by
  intro kvs
  induction kvs with
  | nil => rw [convertPairs]; rfl
  | cons e rest ih => obtain ⟨k, v⟩ := e; rw [convertPairs, ih]; rfl

theorem convertList_eq (m : Span) : ∀ xs : List PVal, convertList m xs = xs.map (convertDict m) := by
  intro xs
  induction xs with
  | nil => rw [convertList]; rfl
  | cons x rest ih => rw [convertList, ih]; rfl

theorem plainPairs_eq : ∀ kvs : List (MKey × PVal), plainPairs kvs = kvs.map (fun e => (e.1.key, plain e.2)) := by
  intro kvs
  induction kvs with
  | nil => rw [plainPairs]; rfl
  | cons e rest ih => obtain ⟨k, v⟩ := e; rw [plainPairs, ih]; rfl

theorem plainList_eq : ∀ xs : List PVal, plainList xs = xs.map plain := by
  intro xs
  induction xs with
  | nil => rw [plainList]; rfl
  | cons x rest ih => rw [plainList, ih]; rfl

/-- a property of all parts passes to the children -/
theorem part_item {mk : Option Span} {xs : List PVal} {x : PVal} {A : PVal → Prop}
    (h : ∀ w, Part (.list mk xs) w → A w) (hx : x ∈ xs) : ∀ w, Part x w → A w := fun w hw => h w (.item hx hw)

theorem noTwice_item {mk : Option Span} {xs : List PVal} {x : PVal} (h : NoTwice (.list mk xs)) (hx : x ∈ xs) : NoTwice x :=
  fun mk' kvs hp => h mk' kvs (.item hx hp)

theorem noTwice_entry {mk : Option Span} {kvs : List (MKey × PVal)} {e : MKey × PVal} (h : NoTwice (.dict mk kvs))
    (he : e ∈ kvs) : NoTwice e.2 := fun mk' kvs' hp => h mk' kvs' (.entry (k := e.1) he hp)

theorem textKeys_item {mk : Option Span} {xs : List PVal} {x : PVal} (h : TextKeys (.list mk xs)) (hx : x ∈ xs) : TextKeys x :=
  fun mk' kvs hp => h mk' kvs (.item hx hp)

theorem textKeys_entry {mk : Option Span} {kvs : List (MKey × PVal)} {e : MKey × PVal} (h : TextKeys (.dict mk kvs))
    (he : e ∈ kvs) : TextKeys e.2 := fun mk' kvs' hp => h mk' kvs' (.entry (k := e.1) he hp)

/-- **C39** (value). Data whose object keys are text keeps its value, order of entries included. -/
theorem C39_value_partial (v : PVal) : NoTwice v → TextKeys v → ∀ m, plain (convertDict m v) = plain v := by
  refine PVal.ind (P := fun v => NoTwice v → TextKeys v → ∀ m, plain (convertDict m v) = plain v) ?_ ?_ ?_ ?_ ?_ ?_ ?_ v
  · intro _ _ m; rw [convertDict]
  · intro _ _ _ m; rw [convertDict]
  · intro _ _ _ m; rw [convertDict]
  · intro _ _ _ m; rw [convertDict]
  · intro _ _ _ _ m; rw [convertDict]
  · intro mk xs ih h1 h2 m
    rw [convertDict, plain, plain, plainList_eq, plainList_eq, convertList_eq, List.map_map]
    congr 1
    apply List.map_congr_left
    intro x hx
    exact ih x hx (noTwice_item h1 hx) (textKeys_item h2 hx) m
  · intro mk kvs ih h1 h2 m
    rw [convertDict, plain, plain]
    congr 1
    have hkey : ∀ e ∈ convertPairs m kvs, e.2.1.key = e.1.key := by
      intro e he
      rw [convertPairs_eq, List.mem_map] at he
      obtain ⟨e', he', rfl⟩ := he
      obtain ⟨s, hs⟩ := h2 mk kvs (.self _) e' he'
      simp only [hs, strOfKey]
    have := rekey_text kvs (convertPairs m kvs) [] (by rw [convertPairs_eq, List.map_map]; rfl) hkey
      (by rw [List.append_nil]; exact h1 mk kvs (.self _))
    rw [List.append_nil] at this
    rw [this, plainPairs_eq, plainPairs_eq, convertPairs_eq, List.nil_append, List.map_map, List.map_map]
    apply List.map_congr_left
    intro e he
    obtain ⟨s, hs⟩ := h2 mk kvs (.self _) e he
    simp only [Function.comp_apply, hs, strOfKey, Prod.mk.injEq, true_and]
    exact ih e he (noTwice_entry h1 he) (textKeys_entry h2 he) _

/-- what the conversion establishes at every part -/
def Good (v : PVal) : Prop :=
  match v with
  | .dict mk kvs => mk.isSome ∧ (pkeys kvs).Nodup ∧ ∀ e ∈ kvs, e.1.mark.isSome ∧ ∃ s, e.1.key = .str s
  | .list mk _ => mk.isSome
  | _ => True

theorem convert_good (v : PVal) : NoTwice v → ∀ m w, Part (convertDict m v) w → Good w := by
  refine PVal.ind (P := fun v => NoTwice v → ∀ m w, Part (convertDict m v) w → Good w) ?_ ?_ ?_ ?_ ?_ ?_ ?_ v
  · intro _ m w h; rw [convertDict] at h; cases h; trivial
  · intro _ _ m w h; rw [convertDict] at h; cases h; trivial
  · intro _ _ m w h; rw [convertDict] at h; cases h; trivial
  · intro _ _ m w h; rw [convertDict] at h; cases h; trivial
  · intro _ _ _ m w h; rw [convertDict] at h; cases h; trivial
  · intro mk xs ih h1 m w h
    rw [convertDict] at h
    cases h with
    | self => rfl
    | item hx hp =>
      rw [convertList_eq, List.mem_map] at hx
      obtain ⟨x', hx', rfl⟩ := hx
      exact ih x' hx' (noTwice_item h1 hx') m w hp
  · intro mk kvs ih h1 m w h
    rw [convertDict] at h
    have inv := rekey_inv (Q := fun k v => (k.mark.isSome ∧ ∃ s, k.key = .str s) ∧ ∀ w, Part v w → Good w)
      (fun _ _ _ _ h h' => ⟨h.1, h'.2⟩) (convertPairs m kvs) kvs
      (by
        intro e he
        rw [convertPairs_eq, List.mem_map] at he
        obtain ⟨e', he', rfl⟩ := he
        exact ⟨⟨rfl, _, rfl⟩, fun w hw => ih e' he' (noTwice_entry h1 he') _ w hw⟩)
      (h1 mk kvs (.self _))
      (by
        intro e he
        right
        rw [convertPairs_eq, List.map_map]
        exact List.mem_map.2 ⟨e, he, rfl⟩)
    cases h with
    | self => exact ⟨rfl, inv.2, fun e he => (inv.1 e he).1⟩
    | entry hx hp => exact (inv.1 _ hx).2 w hp

theorem convert_good_id (v : PVal) : (∀ w, Part v w → Good w) → ∀ m, convertDict m v = v := by
  refine PVal.ind (P := fun v => (∀ w, Part v w → Good w) → ∀ m, convertDict m v = v) ?_ ?_ ?_ ?_ ?_ ?_ ?_ v
  · intro _ m; rw [convertDict]
  · intro _ _ m; rw [convertDict]
  · intro _ _ m; rw [convertDict]
  · intro _ _ m; rw [convertDict]
  · intro _ _ _ m; rw [convertDict]
  · intro mk xs ih h m
    have hself := h _ (.self _)
    cases mk with
    | none => cases hself
    | some mk =>
      rw [convertDict, convertList_eq, Option.getD_some]
      congr 1
      conv => rhs; rw [← List.map_id xs]
      apply List.map_congr_left
      intro x hx
      exact ih x hx (fun w hw => h w (.item hx hw)) m
  · intro mk kvs ih h m
    have hself := h _ (.self _)
    cases mk with
    | none => cases hself.1
    | some mk =>
      obtain ⟨_, hnd, hkeys⟩ := hself
      rw [convertDict, Option.getD_some]
      congr 1
      have hid : convertPairs m kvs = kvs.map (fun e => (e.1, e.1, e.2)) := by
        rw [convertPairs_eq]
        apply List.map_congr_left
        rintro ⟨⟨key, mark⟩, x⟩ he
        obtain ⟨hm, s, hs⟩ := hkeys _ he
        simp only at hm hs
        subst hs
        cases mark with
        | none => cases hm
        | some mark =>
          simp only [strOfKey, keyMark, Option.getD_some]
          rw [ih _ he (fun w hw => h w (.entry he hw))]
      have := rekey_text kvs (convertPairs m kvs) [] (by rw [hid, List.map_map]; rfl)
        (by
          intro e he
          rw [hid, List.mem_map] at he
          obtain ⟨e', _, rfl⟩ := he
          rfl)
        (by rw [List.append_nil]; exact hnd)
      rw [List.append_nil] at this
      rw [this, hid, List.map_map, List.nil_append]
      conv => rhs; rw [← List.map_id kvs]
      apply List.map_congr_left
      intro e _
      rfl

/-- **C39** (annotation). Whatever the keys of the data, every object and list of the result carries marks and so does
every key. -/
theorem C39_annotated (v : PVal) (h : NoTwice v) (m : Span) :
    FullyAnnotated (convertDict m v) ∧ KeysAnnotated (convertDict m v) ∧ NoTwice (convertDict m v) :=
  ⟨⟨fun _ _ hp => (convert_good v h m _ hp).1, fun _ _ hp => convert_good v h m _ hp⟩,
    fun _ _ hp => (convert_good v h m _ hp).2.2, fun _ _ hp => (convert_good v h m _ hp).2.1⟩

/-- **C39** (idempotence). Converting the result again, with whatever marks, changes nothing: not the value, not a mark. -/
theorem C39_idempotent (v : PVal) (h : NoTwice v) (m m' : Span) : convertDict m' (convertDict m v) = convertDict m v :=
  convert_good_id _ (convert_good v h m) m'

/-- The claim in full. -/
def C39_statement : Prop := ∀ (v : PVal) (m : Span), NoTwice v →
  plain (convertDict m v) = plain v ∧ (∀ m', convertDict m' (convertDict m v) = convertDict m v) ∧
  FullyAnnotated (convertDict m v)

theorem noTwice_flat {mk : Option Span} {kvs : List (MKey × PVal)} (h : (kvs.map (fun e => e.1.key)).Nodup)
    (hl : ∀ e ∈ kvs, ∃ i, e.2 = .int i) : NoTwice (.dict mk kvs) := by
  intro mk' kvs' hp
  cases hp with
  | self => exact h
  | entry hx hp =>
    obtain ⟨i, hi⟩ := hl _ hx
    simp only at hi
    subst hi
    cases hp

/-- **C39** does not hold in full: a YAML mapping with the key 1 comes out with the key "1", and of an object with both
keys one entry is lost. -/
theorem C39_violated : ¬ C39_statement := by
  intro h
  have := (h (.dict none [(⟨.int 1, none⟩, .int 5), (⟨.str "1", none⟩, .int 6)]) ⟨0, 0, 0, 0⟩
    (noTwice_flat (by decide) (by intro e he; simp only [List.mem_cons, List.not_mem_nil, or_false] at he; rcases he with rfl | rfl <;> exact ⟨_, rfl⟩))).1
  revert this
  decide +kernel

/-- The hypotheses of the theorems are met. -/
example : NoTwice (.dict none [(⟨.str "a", none⟩, .int 5), (⟨.str "b", none⟩, .int 6)]) :=
  noTwice_flat (by decide) (by intro e he; simp only [List.mem_cons, List.not_mem_nil, or_false] at he; rcases he with rfl | rfl <;> exact ⟨_, rfl⟩)

end CfnLint
