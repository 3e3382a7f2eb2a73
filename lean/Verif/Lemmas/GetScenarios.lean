import Verif.Lemmas.Scenarios
namespace CfnLint
open Spec

/-! ### Tests of parsed conditions -/

mutual
theorem test_complete (sc : EqScenario) : (o : CObj) → o.complete = true → ∃ r, o.test sc = .ok r
  | .equals e, _ => ⟨_, by rw [CObj.test]⟩
  | .cond (a :: as) o n e, h => by
      rw [CObj.test]
      exact testAnd_complete sc (a :: as) (by simpa [CObj.complete] using h)
  | .cond [] (x :: xs) n e, h => by
      rw [CObj.test]
      exact testOr_complete sc (x :: xs) (by simpa [CObj.complete] using h)
  | .cond [] [] (x :: xs) e, h => by
      rw [CObj.test]
      obtain ⟨r, hr⟩ := test_complete sc x (by simpa [CObj.complete] using h)
      rw [hr]
      exact ⟨_, rfl⟩
  | .cond [] [] [] (some e), _ => ⟨_, by rw [CObj.test]⟩
  | .cond [] [] [] none, h => by simp [CObj.complete] at h
theorem testAnd_complete (sc : EqScenario) : (l : List CObj) → CObj.completeAll l = true →
    ∃ r, CObj.testAnd sc l = .ok r
  | [], _ => ⟨_, by rw [CObj.testAnd]⟩
  | a :: as, h => by
      rw [CObj.completeAll, Bool.and_eq_true] at h
      rw [CObj.testAnd]
      obtain ⟨r, hr⟩ := test_complete sc a h.1
      obtain ⟨r', hr'⟩ := testAnd_complete sc as h.2
      rw [hr, hr']
      simp only
      split <;> exact ⟨_, rfl⟩
theorem testOr_complete (sc : EqScenario) : (l : List CObj) → CObj.completeAll l = true →
    ∃ r, CObj.testOr sc l = .ok r
  | [], _ => ⟨_, by rw [CObj.testOr]⟩
  | a :: as, h => by
      rw [CObj.completeAll, Bool.and_eq_true] at h
      rw [CObj.testOr]
      obtain ⟨r, hr⟩ := test_complete sc a h.1
      obtain ⟨r', hr'⟩ := testOr_complete sc as h.2
      rw [hr, hr']
      simp only
      split <;> exact ⟨_, rfl⟩
end

/-- the only exception a test raises -/
def noneTest : PyErr := .attributeError "'NoneType' object has no attribute 'test'"

mutual
theorem test_error (sc : EqScenario) : (o : CObj) → (e : PyErr) → o.test sc = .error e → e = noneTest
  | .equals _, e, h => by rw [CObj.test] at h; cases h
  | .cond (a :: as) o n _, e, h => by
      rw [CObj.test] at h
      exact testAnd_error sc (a :: as) e h
  | .cond [] (x :: xs) n _, e, h => by
      rw [CObj.test] at h
      exact testOr_error sc (x :: xs) e h
  | .cond [] [] (x :: xs) _, e, h => by
      rw [CObj.test] at h
      cases hx : CObj.test sc x with
      | error e' =>
        rw [hx] at h
        injection h with h
        rw [← h]
        exact test_error sc x e' hx
      | ok r => rw [hx] at h; cases h
  | .cond [] [] [] (some _), e, h => by rw [CObj.test] at h; cases h
  | .cond [] [] [] none, e, h => by rw [CObj.test] at h; injection h with h; exact h.symm
theorem testAnd_error (sc : EqScenario) : (l : List CObj) → (e : PyErr) →
    CObj.testAnd sc l = .error e → e = noneTest
  | [], e, h => by rw [CObj.testAnd] at h; cases h
  | a :: as, e, h => by
      rw [CObj.testAnd] at h
      cases hx : CObj.test sc a with
      | error e' =>
        rw [hx] at h
        injection h with h
        rw [← h]
        exact test_error sc a e' hx
      | ok r =>
        rw [hx] at h
        simp only at h
        split at h
        · exact testAnd_error sc as e h
        · cases h
theorem testOr_error (sc : EqScenario) : (l : List CObj) → (e : PyErr) →
    CObj.testOr sc l = .error e → e = noneTest
  | [], e, h => by rw [CObj.testOr] at h; cases h
  | a :: as, e, h => by
      rw [CObj.testOr] at h
      cases hx : CObj.test sc a with
      | error e' =>
        rw [hx] at h
        injection h with h
        rw [← h]
        exact test_error sc a e' hx
      | ok r =>
        rw [hx] at h
        simp only at h
        split at h
        · cases h
        · exact testOr_error sc as e h
end

theorem equals_test_eq (e : CEquals) : ∀ sc : EqScenario,
    e.test sc = ((sc.map Prod.fst).find? (fun k => e.left.eqv k || e.right.eqv k)).bind fun k =>
      (dlookup k sc).map fun v => if e.left.eqv k then e.right.eqv v else e.left.eqv v := by
  intro sc
  induction sc with
  | nil => rfl
  | cons kv rest ih =>
    obtain ⟨k, v⟩ := kv
    rw [CEquals.test]
    by_cases hl : e.left.eqv k = true
    · simp [hl, dlookup]
    · by_cases hr : e.right.eqv k = true
      · simp [hl, hr, dlookup]
      · rw [if_neg hl, if_neg hr, ih]
        simp only [List.map_cons]
        rw [List.find?_cons_of_neg (by simp [hl, hr])]
        cases hf : (rest.map Prod.fst).find? (fun k => e.left.eqv k || e.right.eqv k) with
        | none => rfl
        | some k' =>
          have hp := List.find?_some hf
          have hne : k ≠ k' := by
            rintro rfl
            simp [hl, hr] at hp
          simp only [Option.bind_some, dlookup, if_neg hne]

/-- all expressions of the scenario are hashes -/
def HashKeys (H : Val → String) (sc : EqScenario) : Prop := ∀ k ∈ sc.map Prod.fst, ∃ x, k = H x

theorem eqv_sep {H : Val → String} {v : EqV} {k : String} (hs : Sep H v) (hk : ∃ x, k = H x) :
    v.eqv k = true ↔ v.fn = some k := by
  rcases hs with ⟨x, rfl⟩ | ⟨s, rfl, hs⟩
  · simp [EqV.eqv]
  · obtain ⟨y, rfl⟩ := hk
    simp [EqV.eqv, (hs y).symm]

/-- A comparison of a hash with a text, tested in a scenario that gives the hash a value. -/
theorem is_test {H : Val → String} {e : CEquals} {x : Val} {s v : String} {sc : EqScenario}
    (h : e.Is H x s) (hs : ∀ y, H y ≠ s) (hk : HashKeys H sc) (hv : dlookup (H x) sc = some v) :
    e.test sc = some (v == s) := by
  rw [equals_test_eq]
  have hmem : H x ∈ sc.map Prod.fst := List.mem_map.2 ⟨_, dlookup_mem hv, rfl⟩
  have hp : ∀ k ∈ sc.map Prod.fst, (e.left.eqv k || e.right.eqv k) = true → k = H x := by
    intro k hk' hp
    obtain ⟨y, rfl⟩ := hk k hk'
    rcases h with ⟨h1, h2⟩ | ⟨h1, h2⟩
    · simp [h1, h2, EqV.eqv, (hs y).symm] at hp; exact hp.symm
    · simp [h1, h2, EqV.eqv, (hs y).symm] at hp; exact hp.symm
  have hx : (e.left.eqv (H x) || e.right.eqv (H x)) = true := by
    rcases h with ⟨h1, h2⟩ | ⟨h1, h2⟩ <;> simp [h1, h2, EqV.eqv]
  cases hf : (sc.map Prod.fst).find? (fun k => e.left.eqv k || e.right.eqv k) with
  | none => exact absurd hx (List.find?_eq_none.1 hf _ hmem)
  | some k =>
    have hk' := hp k (List.mem_of_find?_eq_some hf) (by simpa using List.find?_some hf)
    subst hk'
    simp only [Option.bind_some, hv, Option.map_some, Option.some.injEq]
    rcases h with ⟨h1, h2⟩ | ⟨h1, h2⟩
    · simp [h1, h2, EqV.eqv, BEq.comm (a := v)]
    · simp [h1, EqV.eqv, BEq.comm (a := v), (hs x).symm]

theorem eqv_other {H : Val → String} {v : EqV} (hs : Sep H v) : ∃ o, v.other = [o] ∧ ∀ w, v.eqv w = (o == w) := by
  rcases hs with ⟨x, rfl⟩ | ⟨s, rfl, _⟩
  · exact ⟨H x, rfl, by simp [EqV.eqv]⟩
  · exact ⟨s, rfl, by simp [EqV.eqv]⟩

/-- Indistinguishable scenarios give the same results. -/
theorem sim_test {H : Val → String} {infl : Infl} {e : CEquals} {sc sc' : EqScenario}
    (he : EqOK H infl e) (hk : HashKeys H sc) (hs : SimSc infl sc sc') : e.test sc = e.test sc' := by
  rw [equals_test_eq, equals_test_eq, ← hs.1]
  cases hf : (sc.map Prod.fst).find? (fun k => e.left.eqv k || e.right.eqv k) with
  | none => rfl
  | some k =>
    simp only [Option.bind_some]
    have hmem := List.mem_of_find?_eq_some hf
    have hmem' : k ∈ sc'.map Prod.fst := hs.1 ▸ hmem
    have hkk := hk k hmem
    have hp : (e.left.eqv k || e.right.eqv k) = true := by simpa using List.find?_some hf
    obtain ⟨v, hv⟩ : ∃ v, dlookup k sc = some v := by
      cases h : dlookup k sc with
      | none => exact absurd hmem (dlookup_none_iff.1 h)
      | some v => exact ⟨v, rfl⟩
    obtain ⟨v', hv'⟩ : ∃ v, dlookup k sc' = some v := by
      cases h : dlookup k sc' with
      | none => exact absurd hmem' (dlookup_none_iff.1 h)
      | some v => exact ⟨v, rfl⟩
    rw [hv, hv']
    simp only [Option.map_some, Option.some.injEq]
    have hsame := hs.2 k v v' hv hv'
    obtain ⟨hc, hl, hr⟩ := he
    split
    · next h =>
      have hfn := (eqv_sep hl hkk).1 h
      obtain ⟨o, ho, hw⟩ := eqv_other hr
      have := hsame o (hc.1 k hfn o (by rw [ho]; simp))
      rw [hw, hw]
      rw [Bool.eq_iff_iff, beq_iff_eq, beq_iff_eq]
      exact ⟨fun h => (this.1 h.symm).symm, fun h => (this.2 h.symm).symm⟩
    · next h =>
      have hre : e.right.eqv k = true := by
        rw [Bool.or_eq_true] at hp
        exact hp.resolve_left h
      have hfn := (eqv_sep hr hkk).1 hre
      obtain ⟨o, ho, hw⟩ := eqv_other hl
      have := hsame o (hc.2 k hfn o (by rw [ho]; simp))
      rw [hw, hw]
      rw [Bool.eq_iff_iff, beq_iff_eq, beq_iff_eq]
      exact ⟨fun h => (this.1 h.symm).symm, fun h => (this.2 h.symm).symm⟩

/-! ### Collecting the results -/

theorem testAll_ok {t : CondTable} {sc : EqScenario} {f : Key → Option Bool} : ∀ (req : List Key)
    (acc : Scenario), (∀ c ∈ req, ∃ o i, dlookup c t.conds = some (o, i) ∧ o.test sc = .ok (f c)) →
    testAll t sc req acc = .ok (req.foldl (fun a c => dset c (f c) a) acc) := by
  intro req
  induction req with
  | nil => intro acc _; rfl
  | cons c rest ih =>
    intro acc h
    obtain ⟨o, i, hl, ht⟩ := h c List.mem_cons_self
    rw [testAll, hl]
    simp only [ht]
    rw [ih _ (fun c hc => h c (List.mem_cons_of_mem _ hc))]
    rfl

theorem dlookup_foldl_dset {f : Key → Option Bool} : ∀ (req : List Key) (acc : Scenario) (c : Key),
    dlookup c (req.foldl (fun a c => dset c (f c) a) acc) = if c ∈ req then some (f c) else dlookup c acc := by
  intro req
  induction req with
  | nil => intro acc c; simp
  | cons d rest ih =>
    intro acc c
    rw [List.foldl_cons, ih]
    by_cases h1 : c ∈ rest
    · simp [h1]
    · rw [if_neg h1, dlookup_dset]
      by_cases h2 : d = c
      · subst h2; simp
      · have : ¬ c = d := fun e => h2 e.symm
        simp [h1, h2, this]

theorem testAll_inv {t : CondTable} {sc : EqScenario} : ∀ (req : List Key) (acc r : Scenario),
    testAll t sc req acc = .ok r → ∃ f : Key → Option Bool,
      (∀ c ∈ req, ∃ o i, dlookup c t.conds = some (o, i) ∧ o.test sc = .ok (f c)) ∧
      r = req.foldl (fun a c => dset c (f c) a) acc := by
  intro req
  induction req with
  | nil =>
    intro acc r h
    simp only [testAll, Except.ok.injEq] at h
    exact ⟨fun _ => none, by simp, h.symm⟩
  | cons c rest ih =>
    intro acc r h
    rw [testAll] at h
    cases hl : dlookup c t.conds with
    | none => rw [hl] at h; cases h
    | some oi =>
      obtain ⟨o, i⟩ := oi
      rw [hl] at h
      simp only at h
      cases ht : o.test sc with
      | error e => rw [ht] at h; cases h
      | ok b =>
        rw [ht] at h
        obtain ⟨f, hf, hr⟩ := ih _ _ h
        refine ⟨fun d => if d = c then b else f d, ?_, ?_⟩
        · intro d hd
          by_cases hdc : d = c
          · subst hdc; exact ⟨o, i, hl, by simp [ht]⟩
          · simp only [if_neg hdc]
            rcases List.mem_cons.1 hd with h | h
            · exact absurd h hdc
            · exact hf d h
        · rw [hr, List.foldl_cons]
          simp only [if_true]
          -- the two functions agree on `rest`
          have agree : ∀ d ∈ rest, f d = if d = c then b else f d := by
            intro d hd
            split
            · next h =>
              subst h
              obtain ⟨o', i', hl', ht'⟩ := hf d hd
              rw [hl] at hl'
              injection hl' with hl'
              injection hl' with hl1 hl2
              subst hl1
              rw [ht] at ht'
              injection ht' with ht'
              exact ht'.symm
            · rfl
          have fold : ∀ (l : List Key) (a : Scenario), (∀ d ∈ l, d ∈ rest) →
              l.foldl (fun a c => dset c (f c) a) a =
              l.foldl (fun a d => dset d (if d = c then b else f d) a) a := by
            intro l
            induction l with
            | nil => intro a _; rfl
            | cons d l ihl =>
              intro a hl
              rw [List.foldl_cons, List.foldl_cons, ihl _ (fun x hx => hl x (List.mem_cons_of_mem _ hx)),
                ← agree d (hl d List.mem_cons_self)]
          exact fold rest _ (fun _ h => h)

theorem testAll_error {t : CondTable} {sc : EqScenario} : ∀ (req : List Key) (acc : Scenario) (e : PyErr),
    testAll t sc req acc = .error e → e = noneTest := by
  intro req
  induction req with
  | nil => intro acc e h; cases h
  | cons c rest ih =>
    intro acc e h
    rw [testAll] at h
    cases hl : dlookup c t.conds with
    | none => rw [hl] at h; injection h with h; exact h.symm
    | some oi =>
      obtain ⟨o, i⟩ := oi
      rw [hl] at h
      simp only at h
      cases ht : o.test sc with
      | error e' =>
        rw [ht] at h
        injection h with h
        rw [← h]
        exact test_error sc o e' ht
      | ok b => rw [ht] at h; exact ih _ _ h

theorem collect_ok {t : CondTable} {req : List Key} : ∀ (scs : List EqScenario) (rs out : List Scenario),
    collect t req scs rs = .ok out →
    (∀ r, r ∈ out ↔ r ∈ rs ∨ ∃ sc ∈ scs, testAll t sc req [] = .ok r) ∧ (rs.Nodup → out.Nodup) := by
  intro scs
  induction scs with
  | nil =>
    intro rs out h
    simp only [collect, Except.ok.injEq] at h
    subst h
    simp
  | cons sc rest ih =>
    intro rs out h
    rw [collect] at h
    cases ht : testAll t sc req [] with
    | error e => rw [ht] at h; cases h
    | ok r =>
      rw [ht] at h
      obtain ⟨h1, h2⟩ := ih _ _ h
      constructor
      · intro r'
        rw [h1]
        simp only [List.mem_cons, exists_eq_or_imp, ht, Except.ok.injEq]
        split
        · next hm =>
          constructor
          · rintro (h | h)
            · exact .inl h
            · exact .inr (.inr h)
          · rintro (h | rfl | h)
            · exact .inl h
            · exact .inl hm
            · exact .inr h
        · simp only [List.mem_append, List.mem_singleton]
          constructor
          · rintro ((h | h) | h)
            · exact .inl h
            · exact .inr (.inl h.symm)
            · exact .inr (.inr h)
          · rintro (h | h | h)
            · exact .inl (.inl h)
            · exact .inl (.inr h.symm)
            · exact .inr h
      · intro hn
        apply h2
        split
        · exact hn
        · next hm =>
          rw [List.nodup_append]
          refine ⟨hn, by simp, ?_⟩
          intro a ha b hb
          rw [List.mem_singleton] at hb
          subst hb
          rintro rfl
          exact hm ha

theorem collect_total {t : CondTable} {req : List Key} : ∀ (scs : List EqScenario) (rs : List Scenario),
    (∀ sc ∈ scs, ∃ r, testAll t sc req [] = .ok r) → ∃ out, collect t req scs rs = .ok out := by
  intro scs
  induction scs with
  | nil => intro rs _; exact ⟨rs, rfl⟩
  | cons sc rest ih =>
    intro rs h
    obtain ⟨r, hr⟩ := h sc List.mem_cons_self
    rw [collect, hr]
    exact ih _ (fun sc hs => h sc (List.mem_cons_of_mem _ hs))

theorem collect_error {t : CondTable} {req : List Key} : ∀ (scs : List EqScenario) (rs : List Scenario)
    (e : PyErr), collect t req scs rs = .error e → ∃ sc ∈ scs, testAll t sc req [] = .error e := by
  intro scs
  induction scs with
  | nil => intro rs e h; cases h
  | cons sc rest ih =>
    intro rs e h
    rw [collect] at h
    cases ht : testAll t sc req [] with
    | error e' =>
      rw [ht] at h
      injection h with h
      subst h
      exact ⟨sc, List.mem_cons_self, ht⟩
    | ok r =>
      rw [ht] at h
      obtain ⟨s, hs, he⟩ := ih _ _ h
      exact ⟨s, List.mem_cons_of_mem _ hs, he⟩

theorem collect_error' {t : CondTable} {req : List Key} {sc : EqScenario} {e : PyErr} :
    ∀ (scs : List EqScenario) (rs : List Scenario), sc ∈ scs → testAll t sc req [] = .error e →
    collect t req scs rs = .error noneTest := by
  intro scs
  induction scs with
  | nil => intro rs h; cases h
  | cons s rest ih =>
    intro rs hm ht
    rw [collect]
    cases hs : testAll t s req [] with
    | error e' => simp only; rw [testAll_error _ _ _ hs]
    | ok r =>
      simp only
      rcases List.mem_cons.1 hm with rfl | hm
      · rw [hs] at ht; cases ht
      · exact ih _ hm ht

/-! ### Unrelated conditions -/

def curS (acc : List Scenario) : List Scenario := if acc = [] then [[]] else acc

theorem multiplyConditions_eq (rs : List Scenario) (c : Key) (vals : List Bool) :
    multiplyConditions rs c vals =
      (curS rs).flatMap (fun cur => vals.map (fun v => dset c (some v) cur)) := by
  cases rs with
  | nil => simp [multiplyConditions, curS, dset]
  | cons a as => simp [multiplyConditions, curS]

theorem dset_new {α β : Type} [DecidableEq α] {k : α} {v : β} : ∀ {d : List (α × β)}, k ∉ d.map Prod.fst →
    dset k v d = d ++ [(k, v)] := by
  intro d
  induction d with
  | nil => intro _; rfl
  | cons kv rest ih =>
    intro h
    simp only [List.map_cons, List.mem_cons, not_or] at h
    rw [dset, if_neg (fun e => h.1 e.symm), ih h.2]
    rfl

theorem multi_keys {vals : List Bool} (hv : vals ≠ []) : ∀ (req : List Key) (rs : List Scenario)
    (K : List Key), (rs = [] → K = []) → (∀ sc ∈ rs, ∀ c, c ∈ sc.map Prod.fst ↔ c ∈ K) →
    ∀ sc ∈ req.foldl (fun rs c => multiplyConditions rs c vals) rs,
      ∀ c, c ∈ sc.map Prod.fst ↔ c ∈ K ∨ c ∈ req := by
  intro req
  induction req with
  | nil => intro rs K _ h sc hsc c; rw [h sc hsc]; simp
  | cons d rest ih =>
    intro rs K hK h sc hsc c
    rw [List.foldl_cons] at hsc
    have hcur : ∀ sc ∈ curS rs, ∀ c, c ∈ sc.map Prod.fst ↔ c ∈ K := by
      intro sc hs
      unfold curS at hs
      split at hs
      · next h0 =>
        rw [List.mem_singleton] at hs
        subst hs
        rw [hK h0]; simp
      · exact h sc hs
    have := ih (multiplyConditions rs d vals) (K ++ [d]) ?_ ?_ sc hsc c
    · rw [this]; simp [or_assoc]
    · intro he
      exfalso
      rw [multiplyConditions_eq] at he
      obtain ⟨v, vs, rfl⟩ := List.exists_cons_of_ne_nil hv
      rw [List.flatMap_eq_nil_iff] at he
      unfold curS at he
      split at he
      · simpa using he [] (by simp)
      · next h0 =>
        obtain ⟨a, as, rfl⟩ := List.exists_cons_of_ne_nil h0
        simpa using he a (by simp)
    · intro s hs k
      rw [multiplyConditions_eq, List.mem_flatMap] at hs
      obtain ⟨cur, hc, hs⟩ := hs
      obtain ⟨v, _, rfl⟩ := List.mem_map.1 hs
      have := hcur cur hc
      rw [dset_keys]
      simp only [List.mem_append, List.mem_singleton]
      split
      · next hd =>
        rw [this]
        constructor
        · exact .inl
        · rintro (h | rfl)
          · exact h
          · exact (this _).1 hd
      · rw [List.mem_append, this, List.mem_singleton]

theorem multi_nodup {vals : List Bool} (hv : vals.Nodup) : ∀ (req : List Key) (rs : List Scenario),
    req.Nodup → (curS rs).Nodup → rs.Nodup → (∀ sc ∈ rs, ∀ c ∈ req, c ∉ sc.map Prod.fst) →
    (req.foldl (fun rs c => multiplyConditions rs c vals) rs).Nodup := by
  intro req
  induction req with
  | nil => intro rs _ _ h _; exact h
  | cons d rest ih =>
    intro rs hn hc hr hd
    rw [List.foldl_cons]
    rw [List.nodup_cons] at hn
    have hcd : ∀ sc ∈ curS rs, ∀ c ∈ d :: rest, c ∉ sc.map Prod.fst := by
      intro sc hs
      unfold curS at hs
      split at hs
      · rw [List.mem_singleton] at hs; subst hs; simp
      · exact hd sc hs
    have hnd : (multiplyConditions rs d vals).Nodup := by
      rw [multiplyConditions_eq]
      generalize curS rs = cs at hc hcd
      induction cs with
      | nil => simp
      | cons a as iha =>
        rw [List.nodup_cons] at hc
        rw [List.flatMap_cons, List.nodup_append]
        refine ⟨?_, iha hc.2 (fun sc hs => hcd sc (List.mem_cons_of_mem _ hs)), ?_⟩
        · have ha := hcd a List.mem_cons_self d List.mem_cons_self
          rw [List.Nodup, List.pairwise_map]
          refine List.Pairwise.imp ?_ hv
          intro v w hvw he
          rw [dset_new ha, dset_new ha] at he
          simp at he
          exact hvw he
        · intro x hx y hy hxy
          obtain ⟨v, _, rfl⟩ := List.mem_map.1 hx
          obtain ⟨b, hb, hy⟩ := List.mem_flatMap.1 hy
          obtain ⟨w, _, rfl⟩ := List.mem_map.1 hy
          rw [dset_new (hcd a List.mem_cons_self d List.mem_cons_self),
            dset_new (hcd b (List.mem_cons_of_mem _ hb) d List.mem_cons_self)] at hxy
          have := (List.append_inj_left' hxy rfl)
          subst this
          exact hc.1 hb
    refine ih _ hn.2 ?_ hnd ?_
    · unfold curS
      split
      · simp
      · exact hnd
    · intro s hs c hcm
      rw [multiplyConditions_eq, List.mem_flatMap] at hs
      obtain ⟨cur, hcur, hs⟩ := hs
      obtain ⟨v, _, rfl⟩ := List.mem_map.1 hs
      rw [dset_keys]
      have h1 := hcd cur hcur c (List.mem_cons_of_mem _ hcm)
      split
      · exact h1
      · rw [List.mem_append, List.mem_singleton, not_or]
        refine ⟨h1, ?_⟩
        rintro rfl
        exact hn.1 hcm

theorem multi_complete {vals : List Bool} {b : Key → Bool} (hb : ∀ c, b c ∈ vals) : ∀ (req : List Key)
    (rs : List Scenario) (cur : Scenario), req ≠ [] ∨ rs ≠ [] → cur ∈ curS rs →
    ∃ sc ∈ req.foldl (fun rs c => multiplyConditions rs c vals) rs,
      ∀ c, dlookup c sc = if c ∈ req then some (some (b c)) else dlookup c cur := by
  intro req
  induction req with
  | nil =>
    intro rs cur hne hc
    have : rs ≠ [] := by simpa using hne
    rw [curS, if_neg this] at hc
    exact ⟨cur, hc, by simp⟩
  | cons d rest ih =>
    intro rs cur hne hc
    rw [List.foldl_cons]
    have hm : dset d (some (b d)) cur ∈ multiplyConditions rs d vals := by
      rw [multiplyConditions_eq, List.mem_flatMap]
      exact ⟨cur, hc, List.mem_map.2 ⟨b d, hb d, rfl⟩⟩
    have hnil := List.ne_nil_of_mem hm
    obtain ⟨sc, hs, hl⟩ := ih _ (dset d (some (b d)) cur) (.inr hnil) (by rw [curS, if_neg hnil]; exact hm)
    refine ⟨sc, hs, ?_⟩
    intro c
    rw [hl, dlookup_dset]
    by_cases h1 : c ∈ rest
    · simp [h1]
    · by_cases h2 : d = c
      · subst h2; simp [h1]
      · have : ¬ c = d := fun e => h2 e.symm
        simp [h1, h2, this]

end CfnLint
