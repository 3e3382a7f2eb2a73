import Verif.Model.TableKeys
import Verif.Spec.TableKeys
import Verif.Props.BasedOn
import Verif.Props.ListRepeats
/-
C96: E3039 compares the attributes that a table defines with those its keys use.
-/
namespace CfnLint
open Spec

/-! ### Lists under conditions -/

theorem chosen_only {σ : String → Bool} {v : Val} {q q' : Path} {u u' : Val} (h : Chosen σ v q u) (h' : Chosen σ v q' u') : u = u' := by
  induction h generalizing q' with
  | here hi =>
    cases h' with
    | here => rfl
    | left _ _ => exact absurd ⟨_, rfl⟩ hi
    | right _ _ => exact absurd ⟨_, rfl⟩ hi
  | left hc _ ih =>
    generalize hx : fnIf _ _ _ = z at h'
    cases h' with
    | here hi => exact absurd ⟨_, hx.symm⟩ hi
    | left _ h2 => simp only [fnIf, Val.dict.injEq, List.cons.injEq, Prod.mk.injEq, Val.list.injEq, Val.str.injEq, true_and, and_true] at hx
                   obtain ⟨rfl, rfl, rfl⟩ := hx; exact ih h2
    | right hc' _ => simp only [fnIf, Val.dict.injEq, List.cons.injEq, Prod.mk.injEq, Val.list.injEq, Val.str.injEq, true_and, and_true] at hx
                     obtain ⟨rfl, rfl, rfl⟩ := hx; rw [hc] at hc'; cases hc'
  | right hc _ ih =>
    generalize hx : fnIf _ _ _ = z at h'
    cases h' with
    | here hi => exact absurd ⟨_, hx.symm⟩ hi
    | left hc' _ => simp only [fnIf, Val.dict.injEq, List.cons.injEq, Prod.mk.injEq, Val.list.injEq, Val.str.injEq, true_and, and_true] at hx
                    obtain ⟨rfl, rfl, rfl⟩ := hx; rw [hc] at hc'; cases hc'
    | right _ h2 => simp only [fnIf, Val.dict.injEq, List.cons.injEq, Prod.mk.injEq, Val.list.injEq, Val.str.injEq, true_and, and_true] at hx
                    obtain ⟨rfl, rfl, rfl⟩ := hx; exact ih h2

theorem noValue_notIf : ¬ IsIf noValue := by rintro ⟨x, h⟩; simp [noValue] at h

theorem removed_chosen {σ : String → Bool} {v : Val} : Removed σ v ↔ ∃ q, Chosen σ v q noValue := by
  constructor
  · intro h
    induction h with
    | here => exact ⟨[], .here noValue_notIf⟩
    | left hc _ ih => obtain ⟨q, h⟩ := ih; exact ⟨_, .left hc h⟩
    | right hc _ ih => obtain ⟨q, h⟩ := ih; exact ⟨_, .right hc h⟩
  · rintro ⟨q, h⟩
    generalize hn : noValue = n at h
    induction h with
    | here _ => subst hn; exact .here
    | left hc _ ih => exact .left hc (ih hn)
    | right hc _ ih => exact .right hc (ih hn)

/-- a value that is nothing is dropped by a scenario that knows the conditions -/
theorem valueIn_of_removed {sc : Scenario} {σ : String → Bool} {v : Val} (h : Removed σ v) :
    (∀ c, Asks c v → sc.fn c = some (σ c)) → valueIn sc v = .ok .none := by
  induction h with
  | here => intro _; simp [noValue, valueIn]
  | @left c a b hc _ ih =>
    intro hd
    rw [fnIf, valueIn, if_pos rfl, valueIf, lookupBranch_str, hd c .here, hc]
    exact ih (fun d hd' => hd d (.left hd'))
  | @right c a b hc _ ih =>
    intro hd
    rw [fnIf, valueIn, if_pos rfl, valueIf, lookupBranch_str, hd c .here, hc]
    exact ih (fun d hd' => hd d (.right hd'))

theorem valuesIn_of {sc : Scenario} {σ : String → Bool} : ∀ {xs : List Val}, (∀ x ∈ xs, ∀ c, Asks c x → sc.fn c = some (σ c)) →
    (∀ x ∈ xs, ∃ q u, Chosen σ x q u ∧ u ≠ .none ∧ ∀ ys, u ≠ .list ys) →
    ∃ ys, valuesIn sc xs = .ok ys ∧ ∀ u, u ∈ ys ↔ ∃ x ∈ xs, ∃ q, Chosen σ x q u ∧ u ≠ noValue
  | [], _, _ => ⟨[], by rw [valuesIn], by simp⟩
  | x :: xs, hd, hc => by
    obtain ⟨ys, h1, h2⟩ := valuesIn_of (fun x hx => hd x (List.mem_cons_of_mem _ hx)) (fun x hx => hc x (List.mem_cons_of_mem _ hx))
    obtain ⟨q, u, hu, hn, hl⟩ := hc x List.mem_cons_self
    by_cases hnv : u = noValue
    · subst hnv
      refine ⟨ys, by rw [valuesIn, valueIn_of_removed (removed_chosen.2 ⟨q, hu⟩) (hd x List.mem_cons_self)]; simp [h1], fun w => ?_⟩
      rw [h2]
      constructor
      · rintro ⟨y, hy, h⟩; exact ⟨y, List.mem_cons_of_mem _ hy, h⟩
      · rintro ⟨y, hy, q', h, hw⟩
        rcases List.mem_cons.1 hy with rfl | hy
        · exact absurd (chosen_only h hu) hw
        · exact ⟨y, hy, q', h, hw⟩
    · refine ⟨u :: ys, by rw [valuesIn, valueIn_of_chosen hu hl hnv (hd x List.mem_cons_self)]; simp [h1, hn], fun w => ?_⟩
      rw [List.mem_cons, h2]
      constructor
      · rintro (rfl | ⟨y, hy, h⟩)
        · exact ⟨x, List.mem_cons_self, q, hu, hnv⟩
        · exact ⟨y, List.mem_cons_of_mem _ hy, h⟩
      · rintro ⟨y, hy, q', h, hw⟩
        rcases List.mem_cons.1 hy with rfl | hy
        · exact .inl (chosen_only h hu)
        · exact .inr ⟨y, hy, q', h, hw⟩

theorem asks_chosen {σ : String → Bool} {c : String} {v : Val} {q : Path} {u : Val} (h : Chosen σ v q u) (ha : Asks c u) : Asks c v := by
  induction h with
  | here _ => exact ha
  | left _ _ ih => exact .left (ih ha)
  | right _ _ ih => exact .right (ih ha)

/-- a list is what its elements are under the conditions -/
theorem valueIn_list {sc : Scenario} {σ : String → Bool} {v : Val} {q : Path} {xs : List Val} (h : Chosen σ v q (.list xs))
    (hd : ∀ c, Asks c v → sc.fn c = some (σ c)) (hc : ∀ x ∈ xs, ∃ q u, Chosen σ x q u ∧ u ≠ .none ∧ ∀ ys, u ≠ .list ys) :
    ∃ ys, valueIn sc v = .ok (.list ys) ∧ ∀ u, u ∈ ys ↔ ItemOf σ v u := by
  have hitem : ∀ u, ItemOf σ v u ↔ ∃ x ∈ xs, ∃ q, Chosen σ x q u ∧ u ≠ noValue := by
    intro u
    constructor
    · rintro ⟨q1, xs', x, q2, h1, h2, h3, h4⟩
      have := chosen_only h1 h
      injection this with this
      subst this
      exact ⟨x, h2, q2, h3, h4⟩
    · rintro ⟨x, h1, q2, h2, h3⟩
      exact ⟨q, xs, x, q2, h, h1, h2, h3⟩
  obtain ⟨ys, h1, h2⟩ := valuesIn_of (sc := sc) (σ := σ) (xs := xs) (fun x hx c ha => hd c (asks_chosen h (.item hx ha))) hc
  refine ⟨ys, ?_, fun u => (h2 u).trans (hitem u).symm⟩
  clear hitem hc h2
  generalize hl : Val.list xs = l at h
  induction h with
  | here _ => subst hl; rw [valueIn, h1]
  | @left c a b q w hb _ ih =>
    rw [fnIf, valueIn, if_pos rfl, valueIf, lookupBranch_str, hd c .here, hb]
    exact ih (fun d hd' => hd d (.left hd')) hl
  | @right c a b q w hb _ ih =>
    rw [fnIf, valueIn, if_pos rfl, valueIf, lookupBranch_str, hd c .here, hb]
    exact ih (fun d hd' => hd d (.right hd')) hl

/-- what a set has for a list: its elements under agreeing truth values -/
theorem set_list {P : Val → Prop} {kvs m : List (Key × Val)} {k : Key} {sc : Option Scenario} {scs : List Scenario} {σ : String → Bool}
    (hk : (kvs.map Prod.fst).Nodup) (hp : PlainObject kvs) (hset : (scs = [] ∧ (sc, Val.dict m) = (none, .dict kvs)) ∨
      ∃ sc' ∈ scs, ∃ l, valueFromScenario sc' (.dict kvs) = .ok (.dict l) ∧ l ≠ [] ∧ (sc, Val.dict m) = (some sc', .dict l))
    (hσ : Agrees sc σ) (hdec : ∀ v, (k, v) ∈ kvs → ∀ c, Asks c v → Decided sc c) (hP : ∀ u, P u → ∃ a, u = .dict a)
    (hl : ∀ v, (k, v) ∈ kvs → ObjectsOf P v) :
    ∃ ys, (dlookup k m = some (.list ys) ∨ ys = [] ∧ dlookup k m = none) ∧ (∀ u, u ∈ ys ↔ ∃ v, (k, v) ∈ kvs ∧ ItemOf σ v u) ∧ ∀ u ∈ ys, P u := by
  have hitems : ∀ v u, (k, v) ∈ kvs → ItemOf σ v u → P u := by
    rintro v u hv ⟨q, xs, x, q', h1, h2, h3, h4⟩
    rcases (hl v hv).list σ with hr | ⟨q1, xs1, g1, g2⟩
    · obtain ⟨q2, hr⟩ := removed_chosen.1 hr
      have := chosen_only hr h1
      simp [noValue] at this
    · have := chosen_only h1 g1
      injection this with this
      subst this
      obtain ⟨q3, u3, g3, g4⟩ := g2 x h2
      have := chosen_only h3 g3
      subst this
      exact g4 h4
  by_cases hkk : k ∈ kvs.map Prod.fst
  · obtain ⟨⟨k', v⟩, hv, he⟩ := List.mem_map.1 hkk
    simp only at he
    subst he
    have honly : ∀ v', (k', v') ∈ kvs → v' = v := by
      intro v' hv'
      have a1 := dlookup_of_mem hk hv
      have a2 := dlookup_of_mem hk hv'
      rw [a1] at a2
      injection a2 with a2
      exact a2.symm
    have hback : ∀ u, (∃ v', (k', v') ∈ kvs ∧ ItemOf σ v' u) ↔ ItemOf σ v u := by
      intro u
      constructor
      · rintro ⟨v', hv', h⟩; rw [honly v' hv'] at h; exact h
      · intro h; exact ⟨v, hv, h⟩
    rcases hset with ⟨_, he⟩ | ⟨sc', _, l, hvs, _, he⟩
    · injection he with e1 e2
      injection e2 with e2
      subst e1 e2
      have hno : ∀ c, ¬ Asks c v := fun c hc => by
        obtain ⟨_, _, e, _⟩ := hdec v hv c hc
        cases e
      rcases (hl v hv).list σ with hr | ⟨q, xs, h1, h2⟩
      · cases hr with
        | here => exact absurd rfl (hl _ hv).there
        | left => exact absurd .here (hno _)
        | right => exact absurd .here (hno _)
      · cases h1 with
        | left => exact absurd .here (hno _)
        | right => exact absurd .here (hno _)
        | here =>
          refine ⟨xs, .inl (dlookup_of_mem hk hv), fun u => ?_, fun u hu => hitems _ u hv ?_⟩
          · rw [hback]
            constructor
            · intro hu
              obtain ⟨q', u', h3, _⟩ := h2 u hu
              cases h3 with
              | here hi => exact ⟨[], xs, u, [], .here (by rintro ⟨_, h⟩; cases h), hu, .here hi, fun e => (hl _ hv).items _ rfl (e ▸ hu)⟩
              | left => exact absurd (.item hu .here) (hno _)
              | right => exact absurd (.item hu .here) (hno _)
            · rintro ⟨q1, xs1, x, q2, g1, g2, g3, _⟩
              have := chosen_only g1 (.here (by rintro ⟨_, h⟩; cases h))
              injection this with this
              subst this
              cases g3 with
              | here => exact g2
              | left => exact absurd (.item g2 .here) (hno _)
              | right => exact absurd (.item g2 .here) (hno _)
          · obtain ⟨q', u', h3, _⟩ := h2 u hu
            cases h3 with
            | here hi => exact ⟨[], xs, u, [], .here (by rintro ⟨_, h⟩; cases h), hu, .here hi, fun e => (hl _ hv).items _ rfl (e ▸ hu)⟩
            | left => exact absurd (.item hu .here) (hno _)
            | right => exact absurd (.item hu .here) (hno _)
    · injection he with e1 e2
      injection e2 with e2
      subst e1 e2
      have hfn : ∀ c, Asks c v → sc'.fn c = some (σ c) := by
        intro c hca
        obtain ⟨x, hx⟩ := decided_fn (hdec v hv c hca)
        rw [hx, agrees_some hσ c x hx]
      rcases (hl v hv).list σ with hr | ⟨q, xs, h1, h2⟩
      · refine ⟨[], .inr ⟨rfl, ?_⟩, fun u => ?_, by simp⟩
        · cases hd : dlookup k' m with
          | none => rfl
          | some w =>
            obtain ⟨v', hv', g1, g2⟩ := (scenario_lookup hk hp.noIf hvs _ _).1 hd
            rw [honly v' hv', valueIn_of_removed hr hfn] at g1
            injection g1 with g1
            exact absurd g1.symm g2
        · rw [hback]
          simp only [List.not_mem_nil, false_iff]
          rintro ⟨q1, xs1, x, q2, g1, _⟩
          obtain ⟨q3, hr⟩ := removed_chosen.1 hr
          have := chosen_only hr g1
          simp [noValue] at this
      · obtain ⟨ys, g1, g2⟩ := valueIn_list h1 hfn (fun x hx => by
          obtain ⟨q', u, h3, h4⟩ := h2 x hx
          refine ⟨q', u, h3, ?_⟩
          by_cases hu : u = noValue
          · subst hu; simp [noValue]
          · obtain ⟨a, rfl⟩ := hP u (h4 hu); simp)
        refine ⟨ys, .inl ((scenario_lookup hk hp.noIf hvs _ _).2 ⟨v, hv, g1, by simp⟩), fun u => (g2 u).trans (hback u).symm, fun u hu => ?_⟩
        exact hitems v u hv ((g2 u).1 hu)
  · have hno : ∀ v, (k, v) ∉ kvs := fun v hv => hkk (List.mem_map.2 ⟨_, hv, rfl⟩)
    refine ⟨[], .inr ⟨rfl, ?_⟩, by simp [hno], by simp⟩
    rcases hset with ⟨_, he⟩ | ⟨sc', _, l, hvs, _, he⟩
    · injection he with e1 e2
      injection e2 with e2
      subst e2
      exact dlookup_none_iff.2 hkk
    · injection he with e1 e2
      injection e2 with e2
      subst e2
      cases hd : dlookup k m with
      | none => rfl
      | some w =>
        obtain ⟨v', hv', _⟩ := (scenario_lookup hk hp.noIf hvs _ _).1 hd
        exact absurd hv' (hno v')

/-! ### The names of a list -/

/-- the name of an object is found -/
theorem attrName_lookup {u : Val} (hw : u.WF) {n : String} : AttrName u n ↔ ∃ a, u = .dict a ∧ dlookup (Key.str "AttributeName") a = some (.str n) := by
  constructor
  · rintro ⟨a, rfl, h⟩
    rw [Val.WF] at hw
    exact ⟨a, rfl, dlookup_of_mem hw.1 h⟩
  · rintro ⟨a, rfl, h⟩
    exact ⟨a, rfl, dlookup_mem h⟩

theorem attributeNames_spec : ∀ {ys : List Val}, (∀ u ∈ ys, u.WF) → (∀ u ∈ ys, ∃ n, AttrName u n) →
    ∃ ns, attributeNames ys = .ok (some ns) ∧ ∀ n, n ∈ ns ↔ ∃ u ∈ ys, AttrName u n
  | [], _, _ => ⟨[], rfl, by simp⟩
  | y :: ys, hw, h => by
    obtain ⟨ns, h1, h2⟩ := attributeNames_spec (fun u hu => hw u (List.mem_cons_of_mem _ hu)) (fun u hu => h u (List.mem_cons_of_mem _ hu))
    obtain ⟨n, hn⟩ := h y List.mem_cons_self
    have hwy := hw y List.mem_cons_self
    obtain ⟨a, rfl, ha⟩ := (attrName_lookup hwy).1 hn
    refine ⟨n :: ns, by simp [attributeNames, Val.getD, ha, h1], fun m => ?_⟩
    rw [List.mem_cons, h2]
    constructor
    · rintro (rfl | ⟨u, hu, h⟩)
      · exact ⟨_, List.mem_cons_self, hn⟩
      · exact ⟨u, List.mem_cons_of_mem _ hu, h⟩
    · rintro ⟨u, hu, h⟩
      rcases List.mem_cons.1 hu with rfl | hu
      · obtain ⟨a', e, h'⟩ := (attrName_lookup hwy).1 h
        injection e with e
        subst e
        rw [ha] at h'
        injection h' with h'
        injection h' with h'
        exact .inl h'.symm
      · exact .inr ⟨u, hu, h⟩

theorem keyName_spec {u : Val} (hw : u.WF) (h : ∃ n, AttrName u n) : ∃ l, keyName u = .ok l ∧ ∀ n, n ∈ l ↔ AttrName u n := by
  obtain ⟨n, hn⟩ := h
  obtain ⟨a, rfl, ha⟩ := (attrName_lookup hw).1 hn
  refine ⟨[n], ?_, fun m => ?_⟩
  · simp [keyName, getSafe, ha, okType, Val.isInst, Val.isStr]
  · rw [List.mem_singleton, attrName_lookup hw]
    simp [ha, eq_comm]

theorem keyList_spec {ys : List Val} (hw : ∀ u ∈ ys, u.WF) (h : ∀ u ∈ ys, ∃ n, AttrName u n) :
    ∃ l, collectM keyName ys = .ok l ∧ ∀ n, n ∈ l ↔ ∃ u ∈ ys, AttrName u n :=
  collectM_spec (fun u hu => keyName_spec (hw u hu) (h u hu))

/-- the lists that `get_safe` gives for a list or nothing -/
theorem getSafe_names {m : List (Key × Val)} {k : Key} {path : Path} {ys : List Val}
    (h : dlookup k m = some (.list ys) ∨ ys = [] ∧ dlookup k m = none) : getSafe m k (.list []) path [.list] = .ok [(.list ys, path ++ [k])] := by
  rcases h with h | ⟨rfl, h⟩
  · simp [getSafe, h, okType, Val.isInst, Val.isList]
  · simp [getSafe, h, okType, Val.isInst, Val.isList]

theorem schema_spec {m : List (Key × Val)} {k : Key} {path : Path} {ys : List Val} (h : dlookup k m = some (.list ys) ∨ ys = [] ∧ dlookup k m = none)
    (hw : ∀ u ∈ ys, u.WF) (hn : ∀ u ∈ ys, ∃ n, AttrName u n) : ∃ sets l, getSafe m k (.list []) path [.list] = .ok sets ∧
      keySchemaNames sets = .ok l ∧ ∀ n, n ∈ l ↔ ∃ u ∈ ys, AttrName u n := by
  obtain ⟨l, h1, h2⟩ := keyList_spec hw hn
  exact ⟨_, l, getSafe_names h, by simp [keySchemaNames, collectM, iterOf, h1], h2⟩

theorem itemOf_plain {σ : String → Bool} {ks : List Val} (h : ∀ k ∈ ks, ∃ n, AttrName k n) (u : Val) : ItemOf σ (.list ks) u ↔ u ∈ ks := by
  have hk : ∀ k ∈ ks, ¬ IsIf k ∧ k ≠ noValue := by
    intro k hk
    obtain ⟨n, a, rfl, hm⟩ := h k hk
    constructor
    · rintro ⟨x, e⟩
      injection e with e
      subst e
      simp at hm
    · intro e
      injection e with e
      subst e
      simp at hm
  constructor
  · rintro ⟨q, xs, x, q', h1, h2, h3, _⟩
    have := chosen_only h1 (.here (by rintro ⟨_, h⟩; cases h))
    injection this with this
    subst this
    have := chosen_only h3 (.here (hk x h2).1)
    rw [this]
    exact h2
  · intro hu
    exact ⟨[], ks, u, [], .here (by rintro ⟨_, h⟩; cases h), hu, .here (hk u hu).1, (hk u hu).2⟩

theorem index_spec {σ : String → Bool} {ix : List (Key × Val)} (hw : (Val.dict ix).WF) (h : ∀ w, (Key.str "KeySchema", w) ∈ ix → PlainSchema w) :
    ∃ l, indexNames (.dict ix) = .ok l ∧ ∀ n, n ∈ l ↔ SchemaUses σ ix n := by
  have hk := hw
  rw [Val.WF] at hk
  obtain ⟨ys, h1, h2, h3⟩ : ∃ ys, (dlookup (Key.str "KeySchema") ix = some (.list ys) ∨ ys = [] ∧ dlookup (Key.str "KeySchema") ix = none) ∧
      (∀ u ∈ ys, u.WF ∧ ∃ n, AttrName u n) ∧ ∀ n, (∃ u ∈ ys, AttrName u n) ↔ SchemaUses σ ix n := by
    cases hd : dlookup (Key.str "KeySchema") ix with
    | none =>
      refine ⟨[], .inr ⟨rfl, rfl⟩, by simp, fun n => ?_⟩
      simp only [List.not_mem_nil, false_and, exists_false, false_iff]
      rintro ⟨v, u, hv, _⟩
      rw [dlookup_of_mem hk.1 hv] at hd
      cases hd
    | some w =>
      have hwm := dlookup_mem hd
      obtain ⟨ks, rfl, hks⟩ := h w hwm
      refine ⟨ks, .inl rfl, fun u hu => ⟨?_, hks u hu⟩, fun n => ?_⟩
      · obtain ⟨i, hi, he⟩ := List.getElem_of_mem hu
        exact at_wf (.key hwm (.idx (by rw [List.getElem?_eq_getElem hi, he]) .here)) hw
      · constructor
        · rintro ⟨u, hu, hn⟩
          exact ⟨_, u, hwm, (itemOf_plain hks u).2 hu, hn⟩
        · rintro ⟨v, u, hv, hu, hn⟩
          rw [dlookup_of_mem hk.1 hv] at hd
          injection hd with hd
          subst hd
          exact ⟨u, (itemOf_plain hks u).1 hu, hn⟩
  obtain ⟨sets, l, g1, g2, g3⟩ := schema_spec (path := []) h1 (fun u hu => (h2 u hu).1) (fun u hu => (h2 u hu).2)
  exact ⟨l, by simp only [indexNames, g1, g2], fun n => (g3 n).trans (h3 n)⟩

theorem secondary_spec {σ : String → Bool} {m : List (Key × Val)} {k : Key} {path : Path} {ys : List Val}
    (h : dlookup k m = some (.list ys) ∨ ys = [] ∧ dlookup k m = none)
    (hw : ∀ u ∈ ys, u.WF) (hn : ∀ u ∈ ys, ∃ ix, u = .dict ix ∧ ∀ w, (Key.str "KeySchema", w) ∈ ix → PlainSchema w) :
    ∃ sets l, getSafe m k (.list []) path [.list] = .ok sets ∧ secondaryNames sets = .ok l ∧
      ∀ n, n ∈ l ↔ ∃ ix, Val.dict ix ∈ ys ∧ SchemaUses σ ix n := by
  obtain ⟨l, h1, h2⟩ := collectM_spec (f := indexNames) (as := ys) (P := fun u n => ∃ ix, u = .dict ix ∧ SchemaUses σ ix n) (fun u hu => by
    obtain ⟨ix, rfl, hs⟩ := hn u hu
    obtain ⟨l, g1, g2⟩ := index_spec (σ := σ) (hw _ hu) hs
    refine ⟨l, g1, fun n => (g2 n).trans ?_⟩
    constructor
    · intro h; exact ⟨ix, rfl, h⟩
    · rintro ⟨ix', e, h⟩; injection e with e; rw [e]; exact h)
  refine ⟨_, l, getSafe_names h, by simp [secondaryNames, collectM, iterOf, h1], fun n => (h2 n).trans ?_⟩
  constructor
  · rintro ⟨u, hu, ix, rfl, hs⟩; exact ⟨ix, hu, hs⟩
  · rintro ⟨ix, hu, hs⟩; exact ⟨_, hu, ix, rfl, hs⟩

theorem sameNames_iff {as ks : List String} : sameNames as ks = true ↔ ∀ n, n ∈ as ↔ n ∈ ks := by
  simp only [sameNames, Bool.and_eq_true, List.all_eq_true, List.contains_iff_mem]
  constructor
  · rintro ⟨h1, h2⟩ n; exact ⟨h1 n, h2 n⟩
  · intro h; exact ⟨fun a ha => (h a).1 ha, fun k hk => (h k).2 hk⟩

theorem mem_sortedSet {l : List String} {n : String} : n ∈ sortedSet l ↔ n ∈ l := by
  rw [sortedSet, List.mem_mergeSort, List.mem_eraseDups]

/-- an element under the conditions is part of the value -/
theorem itemOf_wf {σ : String → Bool} {kvs : List (Key × Val)} {k : Key} {v u : Val} (hw : (Val.dict kvs).WF) (hv : (k, v) ∈ kvs)
    (h : ItemOf σ v u) : u.WF := by
  obtain ⟨q, xs, x, q', h1, h2, h3, _⟩ := h
  have hl : (Val.list xs).WF := at_wf (chosen_at h1) (at_wf (.key hv .here) hw)
  obtain ⟨i, hi, he⟩ := List.getElem_of_mem h2
  have hx : x.WF := at_wf (.idx (by rw [List.getElem?_eq_getElem hi, he]) .here) hl
  exact at_wf (chosen_at h3) hx

/-! ### A set of properties -/

/-- **C96** In a set of properties that settles the conditions there is a finding exactly if the attributes defined are not those used; it lists
both. -/
theorem C96_set_partial {kvs m : List (Key × Val)} {sc : Option Scenario} {scs : List Scenario} {σ : String → Bool} {path : Path}
    (hg : TableOf PlainSchema kvs) (hset : (scs = [] ∧ (sc, Val.dict m) = (none, .dict kvs)) ∨
      ∃ sc' ∈ scs, ∃ l, valueFromScenario sc' (.dict kvs) = .ok (.dict l) ∧ l ≠ [] ∧ (sc, Val.dict m) = (some sc', .dict l))
    (hσ : Agrees sc σ) (hdec : ∀ c, GroupCond kvs tableProps c → Decided sc c) :
    ∃ as ks res, tableSet path (sc, .dict m) = .ok res ∧ (∀ n, n ∈ as ↔ Defines σ kvs n) ∧ (∀ n, n ∈ ks ↔ KeysUse σ kvs n) ∧
      ∀ r, r ∈ res ↔ (¬ ∀ n, Defines σ kvs n ↔ KeysUse σ kvs n) ∧ r = ⟨path, sortedSet as, sortedSet ks⟩ := by
  have hk := hg.wf
  rw [Val.WF] at hk
  have hd : ∀ p ∈ tableProps, ∀ v, (Key.str p, v) ∈ kvs → ∀ c, Asks c v → Decided sc c := fun p hp v hv c hc => hdec c ⟨p, hp, v, hv, hc⟩
  have hP1 : ∀ u : Val, (∃ n, AttrName u n) → ∃ a, u = .dict a := by rintro u ⟨n, a, rfl, _⟩; exact ⟨a, rfl⟩
  have hP2 : ∀ u : Val, (∃ ix, u = .dict ix ∧ ∀ w, (Key.str "KeySchema", w) ∈ ix → PlainSchema w) → ∃ a, u = .dict a := by
    rintro u ⟨ix, rfl, _⟩; exact ⟨ix, rfl⟩
  obtain ⟨d1, a1, b1, c1⟩ := set_list hk.1 hg.plain hset hσ (hd "AttributeDefinitions" (by simp [tableProps])) hP1 hg.defs
  obtain ⟨d2, a2, b2, c2⟩ := set_list hk.1 hg.plain hset hσ (hd "KeySchema" (by simp [tableProps])) hP1 hg.keys
  obtain ⟨d3, a3, b3, c3⟩ := set_list hk.1 hg.plain hset hσ (hd "GlobalSecondaryIndexes" (by simp [tableProps])) hP2
    (fun v hv => hg.indexes "GlobalSecondaryIndexes" v (.inl rfl) hv)
  obtain ⟨d4, a4, b4, c4⟩ := set_list hk.1 hg.plain hset hσ (hd "LocalSecondaryIndexes" (by simp [tableProps])) hP2
    (fun v hv => hg.indexes "LocalSecondaryIndexes" v (.inr rfl) hv)
  have hw : ∀ {k : Key} {ys : List Val}, (∀ u, u ∈ ys ↔ ∃ v, (k, v) ∈ kvs ∧ ItemOf σ v u) → ∀ u ∈ ys, u.WF := by
    intro k ys hb u hu
    obtain ⟨v, hv, hi⟩ := (hb u).1 hu
    exact itemOf_wf hg.wf hv hi
  obtain ⟨as, e1, f1⟩ := attributeNames_spec (hw b1) c1
  obtain ⟨s2, k2, e2, e2', f2⟩ := schema_spec (path := []) a2 (hw b2) c2
  obtain ⟨s3, k3, e3, e3', f3⟩ := secondary_spec (σ := σ) (path := path) a3 (hw b3) c3
  obtain ⟨s4, k4, e4, e4', f4⟩ := secondary_spec (σ := σ) (path := path) a4 (hw b4) c4
  have has : ∀ n, n ∈ as ↔ Defines σ kvs n := by
    intro n
    rw [f1]
    constructor
    · rintro ⟨u, hu, hn⟩
      obtain ⟨v, hv, hi⟩ := (b1 u).1 hu
      exact ⟨v, u, hv, hi, hn⟩
    · rintro ⟨v, u, hv, hi, hn⟩
      exact ⟨u, (b1 u).2 ⟨v, hv, hi⟩, hn⟩
  have hks : ∀ n, n ∈ k2 ++ k3 ++ k4 ↔ KeysUse σ kvs n := by
    intro n
    rw [List.mem_append, List.mem_append, f2, f3, f4]
    constructor
    · rintro ((⟨u, hu, hn⟩ | ⟨ix, hu, hn⟩) | ⟨ix, hu, hn⟩)
      · obtain ⟨v, hv, hi⟩ := (b2 u).1 hu
        exact .inl ⟨v, u, hv, hi, hn⟩
      · obtain ⟨v, hv, hi⟩ := (b3 _).1 hu
        exact .inr ⟨_, v, ix, .inl rfl, hv, hi, hn⟩
      · obtain ⟨v, hv, hi⟩ := (b4 _).1 hu
        exact .inr ⟨_, v, ix, .inr rfl, hv, hi, hn⟩
    · rintro (⟨v, u, hv, hi, hn⟩ | ⟨p, v, ix, rfl | rfl, hv, hi, hn⟩)
      · exact .inl (.inl ⟨u, (b2 u).2 ⟨v, hv, hi⟩, hn⟩)
      · exact .inl (.inr ⟨ix, (b3 _).2 ⟨v, hv, hi⟩, hn⟩)
      · exact .inr ⟨ix, (b4 _).2 ⟨v, hv, hi⟩, hn⟩
  have hdefs : iterOf ((dlookup (Key.str "AttributeDefinitions") m).getD (.list [])) = .ok d1 := by
    rcases a1 with a1 | ⟨rfl, a1⟩ <;> simp [a1, iterOf]
  have hkeys : tableKeys m path = .ok (k2 ++ k3 ++ k4) := by
    simp only [tableKeys, e2, e2', e3, e3', e4, e4']
  refine ⟨as, k2 ++ k3 ++ k4, _, by simp only [tableSet, hdefs, e1, hkeys]; rfl, has, hks, fun r => ?_⟩
  have hsame : (sameNames as (k2 ++ k3 ++ k4) = true) ↔ ∀ n, Defines σ kvs n ↔ KeysUse σ kvs n := by
    rw [sameNames_iff]
    exact forall_congr' (fun n => by rw [has n, hks n])
  by_cases hs : sameNames as (k2 ++ k3 ++ k4) = true
  · rw [if_pos hs]
    simp only [List.not_mem_nil, false_iff]
    rintro ⟨h, _⟩
    exact h (hsame.1 hs)
  · rw [if_neg hs, List.mem_singleton]
    constructor
    · intro h; exact ⟨fun h' => hs (hsame.2 h'), h⟩
    · rintro ⟨_, h⟩; exact h

/-- **C96** The names of a message are in order and without repetition. -/
theorem C96_message {l : List String} : (sortedSet l).Pairwise (· < ·) := by
  have h1 : (sortedSet l).Pairwise (fun a b => a ≤ b) := by
    have := List.pairwise_mergeSort (le := fun a b : String => decide (a ≤ b)) (fun a b c h1 h2 => by
      simp only [decide_eq_true_eq] at h1 h2 ⊢; exact le_trans h1 h2) (fun a b => by
      simp only [Bool.or_eq_true, decide_eq_true_eq]; exact le_total a b) l.eraseDups
    simpa [sortedSet] using this
  have h2 : (sortedSet l).Nodup := by
    rw [sortedSet, (List.mergeSort_perm _ _).nodup_iff]
    exact nodup_eraseDups _ l (Nat.le_refl _)
  exact (h1.and h2).imp (fun h => lt_of_le_of_ne h.1 h.2)

/-- what a finding says of a table under truth values -/
def TableFinding (σ : String → Bool) (kvs : List (Key × Val)) (path : Path) (r : TableReport) : Prop :=
  (¬ ∀ n, Defines σ kvs n ↔ KeysUse σ kvs n) ∧ r.path = path ∧ (∀ n, n ∈ r.attributes ↔ Defines σ kvs n) ∧ ∀ n, n ∈ r.keys ↔ KeysUse σ kvs n

/-- **C96** A finding comes from a set of properties of which it is true. -/
theorem C96_sound_partial {enum : String → List String → List String} {order : List String → List String} {tb : CondTable} {kvs : List (Key × Val)}
    {path : Path} {res : List TableReport} {sets : List (Option Scenario × Val)} (hg : TableOf PlainSchema kvs)
    (hs : objectWithoutNamed enum order tb (.dict kvs) tableProps = .ok sets) (h : tableCheck enum order tb (.dict kvs) path = .ok res)
    {r : TableReport} (hr : r ∈ res) : ∃ s ∈ sets, ∀ σ, Agrees s.1 σ → (∀ c, GroupCond kvs tableProps c → Decided s.1 c) → TableFinding σ kvs path r := by
  have hk := hg.wf
  rw [Val.WF] at hk
  obtain ⟨cs, scs, _, _, _, hmem⟩ := based_sets hk.1 hg.plain (by simp [tableProps]) (by simp [tableProps]) hs
  unfold tableCheck at h
  rw [hs] at h
  obtain ⟨s, hsm, l, hl, hrl⟩ := (mem_collectM h).1 hr
  refine ⟨s, hsm, fun σ hσ hdec => ?_⟩
  have hset := (hmem s).1 hsm
  obtain ⟨sc, obj⟩ := s
  obtain ⟨m, rfl⟩ : ∃ m, obj = .dict m := by
    rcases hset with ⟨_, he⟩ | ⟨_, _, l, _, _, he⟩
    · injection he with _ e; exact ⟨_, e⟩
    · injection he with _ e; exact ⟨_, e⟩
  obtain ⟨as, ks, res', g1, g2, g3, g4⟩ := C96_set_partial (path := path) hg hset hσ hdec
  rw [hl] at g1
  injection g1 with g1
  subst g1
  obtain ⟨g5, rfl⟩ := (g4 r).1 hrl
  exact ⟨g5, rfl, fun n => mem_sortedSet.trans (g2 n), fun n => mem_sortedSet.trans (g3 n)⟩

/-- **C96** A deployment in which the attributes defined are not those used is reported, with the attributes of the deployment. -/
theorem C96_complete_partial {H : Val → String} {fuel : Nat} {enum : String → List String → List String} {order : List String → List String}
    {t : List (Key × Val)} {tb : CondTable} {b : String → Bool} {kvs : List (Key × Val)} {path : Path} {res : List TableReport} (ho : SetOrder order)
    (hg : TableOf PlainSchema kvs) (hd : Deployment H fuel enum t tb (GroupCond kvs tableProps) b)
    (h : tableCheck enum order tb (.dict kvs) path = .ok res) (hm : ¬ ∀ n, Defines b kvs n ↔ KeysUse b kvs n) :
    ∃ r ∈ res, TableFinding b kvs path r := by
  have hk := hg.wf
  rw [Val.WF] at hk
  unfold tableCheck at h
  cases hs : objectWithoutNamed enum order tb (.dict kvs) tableProps with
  | error e => rw [hs] at h; cases h
  | ok sets =>
    rw [hs] at h
    simp only at h
    obtain ⟨cs, scs, hcs, hsc, hobj, hmem⟩ := based_sets hk.1 hg.plain (by simp [tableProps]) (by simp [tableProps]) hs
    have hitem : ∀ p v u, (Key.str p, v) ∈ kvs → ItemOf b v u → ∃ n, HasProp b kvs n := by
      rintro p v u hv ⟨q, xs, _, _, h1, _⟩
      exact ⟨p, v, hv, chosen_not_removed h1 (by simp [noValue])⟩
    have hhas : ∃ n, HasProp b kvs n := by
      by_contra hno
      apply hm
      intro n
      constructor
      · rintro ⟨v, u, hv, hi, _⟩; exact absurd (hitem _ v u hv hi) hno
      · rintro (⟨v, u, hv, hi, _⟩ | ⟨p, v, ix, _, hv, hi, _⟩)
        · exact absurd (hitem _ v u hv hi) hno
        · exact absurd (hitem _ v _ hv hi) hno
    obtain ⟨set, hset, hag, hdec⟩ := sets_complete hd ho hcs hsc hg.plain hobj (.inl hhas)
    have hset' := (hmem set).1 hset
    obtain ⟨sc, obj⟩ := set
    obtain ⟨m, rfl⟩ : ∃ m, obj = .dict m := by
      rcases hset' with ⟨_, he⟩ | ⟨_, _, l, _, _, he⟩
      · injection he with _ e; exact ⟨_, e⟩
      · injection he with _ e; exact ⟨_, e⟩
    obtain ⟨as, ks, res', g1, g2, g3, g4⟩ := C96_set_partial (path := path) hg hset' hag hdec
    refine ⟨_, (mem_collectM h).2 ⟨_, hset, res', g1, (g4 _).2 ⟨hm, rfl⟩⟩, hm, rfl, fun n => mem_sortedSet.trans (g2 n), fun n => mem_sortedSet.trans (g3 n)⟩

/-! ### The key schemas of indexes -/

/-- what C96 asks: findings are true, whatever the key schemas of the indexes depend on -/
def C96_statement : Prop :=
  ∀ (enum : String → List String → List String) (order : List String → List String) (tb : CondTable) (kvs : List (Key × Val)) (path : Path)
    (res : List TableReport) (sets : List (Option Scenario × Val)), TableOf (ObjectsOf (fun u => ∃ n, AttrName u n)) kvs →
    objectWithoutNamed enum order tb (.dict kvs) tableProps = .ok sets → tableCheck enum order tb (.dict kvs) path = .ok res → ∀ r ∈ res,
    ∃ s ∈ sets, ∀ σ, Agrees s.1 σ → (∀ c, GroupCond kvs tableProps c → Decided s.1 c) → TableFinding σ kvs path r

/-- an object with an attribute name -/
def exAttr (n : String) : Val := .dict [(.str "AttributeName", .str n)]

theorem exAttr_of (n : String) : AttrName (exAttr n) n := ⟨_, rfl, List.mem_cons_self⟩

theorem exAttr_only {n m : String} (h : AttrName (exAttr n) m) : m = n := by
  obtain ⟨a, e, h⟩ := h
  injection e with e
  subst e
  simp at h
  exact h

theorem exAttr_notIf (n : String) : ¬ IsIf (exAttr n) := by rintro ⟨_, h⟩; simp [exAttr] at h

theorem exAttr_ne (n : String) : exAttr n ≠ noValue := by simp [exAttr, noValue]

theorem list_notIf {xs : List Val} : ¬ IsIf (.list xs) := by rintro ⟨_, h⟩; cases h

/-- lists of objects with names -/
theorem exAttrs_of (ns : List String) : ObjectsOf (fun u => ∃ n, AttrName u n) (.list (ns.map exAttr)) where
  there := by simp [noValue]
  items := by
    intro xs e hm
    injection e with e
    subst e
    obtain ⟨n, _, h⟩ := List.mem_map.1 hm
    exact exAttr_ne n h
  list := fun σ => .inr ⟨_, _, .here list_notIf, fun x hx => by
    obtain ⟨n, _, rfl⟩ := List.mem_map.1 hx
    exact ⟨_, _, .here (exAttr_notIf n), fun _ => ⟨n, exAttr_of n⟩⟩⟩

theorem exAttrs_item {σ : String → Bool} {ns : List String} {u : Val} : ItemOf σ (.list (ns.map exAttr)) u ↔ ∃ n ∈ ns, u = exAttr n := by
  rw [itemOf_plain (fun k hk => by obtain ⟨n, _, rfl⟩ := List.mem_map.1 hk; exact ⟨n, exAttr_of n⟩), List.mem_map]
  constructor
  · rintro ⟨n, h, rfl⟩; exact ⟨n, h, rfl⟩
  · rintro ⟨n, h, rfl⟩; exact ⟨n, h, rfl⟩

/-- a table whose index has keys that depend on a condition -/
def exIndexed (ns : List String) : List (Key × Val) :=
  [(.str "AttributeDefinitions", .list (ns.map exAttr)),
   (.str "GlobalSecondaryIndexes", .list [.dict [(.str "IndexName", .str "I"),
     (.str "KeySchema", fnIf (.str "C1") (.list (["A"].map exAttr)) (.list (["B"].map exAttr)))]])]

theorem exIndexed_of (ns : List String) (hw : (Val.dict (exIndexed ns)).WF) (hp : Proper (.list (ns.map exAttr))) :
    TableOf (ObjectsOf (fun u => ∃ n, AttrName u n)) (exIndexed ns) where
  wf := hw
  plain := ⟨by simp [exIndexed], by simp [exIndexed], by
    intro kv hkv
    simp only [exIndexed, List.mem_cons, List.not_mem_nil, or_false] at hkv
    rcases hkv with rfl | rfl
    · exact hp
    · simp [Proper, ProperItems]⟩
  defs := by
    intro v hv
    simp [exIndexed] at hv
    subst hv
    exact exAttrs_of ns
  keys := by intro v hv; simp [exIndexed] at hv
  indexes := by
    intro p v hp hv
    simp only [exIndexed, List.mem_cons, Prod.mk.injEq, Key.str.injEq, List.not_mem_nil, or_false] at hv
    rcases hv with ⟨rfl, _⟩ | ⟨_, rfl⟩
    · simp at hp
    · refine ⟨by simp [noValue], ?_, ?_⟩
      · intro xs e
        injection e with e
        subst e
        simp [noValue]
      · intro σ
        refine .inr ⟨_, _, .here list_notIf, fun x hx => ?_⟩
        simp only [List.mem_singleton] at hx
        subst hx
        refine ⟨_, _, .here (by rintro ⟨_, h⟩; simp at h), fun _ => ⟨_, rfl, ?_⟩⟩
        intro w hw
        simp only [List.mem_cons, Prod.mk.injEq, Key.str.injEq, List.not_mem_nil, or_false] at hw
        rcases hw with ⟨h, _⟩ | ⟨_, rfl⟩
        · simp at h
        · refine ⟨by simp [fnIf, noValue], ?_, ?_⟩
          · intro xs e; simp [fnIf] at e
          · intro σ
            cases hc : σ "C1" with
            | true => exact .inr ⟨_, _, .left hc (.here list_notIf), fun x hx => by
                obtain ⟨n, _, rfl⟩ := List.mem_map.1 hx
                exact ⟨_, _, .here (exAttr_notIf n), fun _ => ⟨n, exAttr_of n⟩⟩⟩
            | false => exact .inr ⟨_, _, .right hc (.here list_notIf), fun x hx => by
                obtain ⟨n, _, rfl⟩ := List.mem_map.1 hx
                exact ⟨_, _, .here (exAttr_notIf n), fun _ => ⟨n, exAttr_of n⟩⟩⟩

theorem exIndexed_noCond {ns : List String} {c : String} : ¬ GroupCond (exIndexed ns) tableProps c := by
  rintro ⟨p, _, v, hv, ha⟩
  simp only [exIndexed, List.mem_cons, Prod.mk.injEq, Key.str.injEq, List.not_mem_nil, or_false] at hv
  rcases hv with ⟨_, rfl⟩ | ⟨_, rfl⟩
  · generalize hl : Val.list (ns.map exAttr) = l at ha
    cases ha with
    | here => simp [fnIf] at hl
    | left => simp [fnIf] at hl
    | right => simp [fnIf] at hl
    | item hx h =>
      injection hl with hl
      subst hl
      obtain ⟨n, _, rfl⟩ := List.mem_map.1 hx
      generalize hz : exAttr n = z at h
      cases h <;> simp [exAttr, fnIf] at hz
  · generalize hl : Val.list _ = l at ha
    cases ha with
    | here => simp [fnIf] at hl
    | left => simp [fnIf] at hl
    | right => simp [fnIf] at hl
    | item hx h =>
      injection hl with hl
      subst hl
      simp only [List.mem_singleton] at hx
      subst hx
      generalize hz : Val.dict _ = z at h
      cases h <;> simp [fnIf] at hz

/-- under the condition the keys are those of the branch -/
theorem exIndexed_uses {ns : List String} {σ : String → Bool} {n : String} : KeysUse σ (exIndexed ns) n ↔ n = if σ "C1" then "A" else "B" := by
  have hitem : ∀ u, ItemOf σ (fnIf (.str "C1") (.list (["A"].map exAttr)) (.list (["B"].map exAttr))) u ↔ u = exAttr (if σ "C1" then "A" else "B") := by
    intro u
    cases hc : σ "C1" with
    | true =>
      simp only [if_true]
      constructor
      · rintro ⟨q, xs, x, q', h1, h2, h3, h4⟩
        have := chosen_only h1 (.left hc (.here list_notIf))
        have : ItemOf σ (.list (["A"].map exAttr)) u := ⟨[], _, x, q', .here list_notIf, (Val.list.inj this) ▸ h2, h3, h4⟩
        obtain ⟨n, hn, rfl⟩ := exAttrs_item.1 this
        simp at hn
        rw [hn]
      · rintro rfl
        exact ⟨_, _, exAttr "A", [], .left hc (.here list_notIf), by simp, .here (exAttr_notIf _), exAttr_ne _⟩
    | false =>
      simp only [Bool.false_eq_true, if_false]
      constructor
      · rintro ⟨q, xs, x, q', h1, h2, h3, h4⟩
        have := chosen_only h1 (.right hc (.here list_notIf))
        have : ItemOf σ (.list (["B"].map exAttr)) u := ⟨[], _, x, q', .here list_notIf, (Val.list.inj this) ▸ h2, h3, h4⟩
        obtain ⟨n, hn, rfl⟩ := exAttrs_item.1 this
        simp at hn
        rw [hn]
      · rintro rfl
        exact ⟨_, _, exAttr "B", [], .right hc (.here list_notIf), by simp, .here (exAttr_notIf _), exAttr_ne _⟩
  constructor
  · rintro (⟨v, u, hv, _⟩ | ⟨p, v, ix, hp, hv, hi, w, u, hw, hu, hn⟩)
    · simp [exIndexed] at hv
    · simp only [exIndexed, List.mem_cons, Prod.mk.injEq, Key.str.injEq, List.not_mem_nil, or_false] at hv
      rcases hv with ⟨rfl, _⟩ | ⟨_, rfl⟩
      · simp at hp
      · obtain ⟨q, xs, x, q', h1, h2, h3, _⟩ := hi
        have := chosen_only h1 (.here list_notIf)
        injection this with this
        subst this
        simp only [List.mem_singleton] at h2
        subst h2
        have := chosen_only h3 (.here (by rintro ⟨_, h⟩; simp at h))
        injection this with this
        subst this
        simp only [List.mem_cons, Prod.mk.injEq, Key.str.injEq, List.not_mem_nil, or_false] at hw
        rcases hw with ⟨h, _⟩ | ⟨_, rfl⟩
        · simp at h
        · rw [hitem] at hu
          subst hu
          exact exAttr_only hn
  · rintro rfl
    refine .inr ⟨_, _, _, .inl rfl, List.mem_cons_of_mem _ List.mem_cons_self, ⟨_, _, _, _, .here list_notIf, List.mem_cons_self,
      .here (by rintro ⟨_, h⟩; simp at h), by simp [noValue]⟩, _, _, List.mem_cons_of_mem _ List.mem_cons_self, (hitem _).2 rfl, exAttr_of _⟩

theorem exIndexed_defines {ns : List String} {σ : String → Bool} {n : String} : Defines σ (exIndexed ns) n ↔ n ∈ ns := by
  constructor
  · rintro ⟨v, u, hv, hi, hn⟩
    simp [exIndexed] at hv
    subst hv
    obtain ⟨m, hm, rfl⟩ := exAttrs_item.1 hi
    rw [exAttr_only hn]
    exact hm
  · intro hn
    exact ⟨_, _, List.mem_cons_self, exAttrs_item.2 ⟨n, hn, rfl⟩, exAttr_of n⟩

theorem exIndexed_sets : objectWithoutNamed (fun _ s => s) List.eraseDups exOneTable (.dict (exIndexed ["A"])) tableProps =
    .ok [(none, .dict (exIndexed ["A"]))] := rfl

/-- **C96** The statement is false: the keys of both branches are taken together. -/
theorem C96_violated : ¬ C96_statement := by
  intro h
  have h1 : tableCheck (fun _ s => s) List.eraseDups exOneTable (.dict (exIndexed ["A"])) [] = .ok [⟨[], sortedSet ["A"], sortedSet ["A", "B"]⟩] := rfl
  obtain ⟨s, hs, hh⟩ := h _ _ _ _ _ _ _ (exIndexed_of ["A"] (by simp [Val.WF, Val.WFDict, Val.WFList, exIndexed, exAttr, fnIf]) (by simp [Proper, ProperItems, exAttr])) exIndexed_sets h1 _ List.mem_cons_self
  simp only [List.mem_singleton] at hs
  subst hs
  obtain ⟨_, _, _, h2⟩ := hh (fun _ => true) (by intro s h; cases h) (fun c hc => absurd hc exIndexed_noCond)
  have := (h2 "B").1 (mem_sortedSet.2 (by simp))
  rw [exIndexed_uses] at this
  simp at this

/-- **C96** An index whose keys use one attribute or the other makes the rule silent about a table that defines both, though it never uses both. -/
theorem C96_missed : tableCheck (fun _ s => s) List.eraseDups exOneTable (.dict (exIndexed ["A", "B"])) [] = .ok [] ∧
    ∀ σ, ¬ ∀ n, Defines σ (exIndexed ["A", "B"]) n ↔ KeysUse σ (exIndexed ["A", "B"]) n := by
  refine ⟨by decide +kernel, fun σ h => ?_⟩
  have hA := (h "A").1 (exIndexed_defines.2 (by simp))
  have hB := (h "B").1 (exIndexed_defines.2 (by simp))
  rw [exIndexed_uses] at hA hB
  cases hc : σ "C1" <;> simp [hc] at hA hB

/-- **C96** A key whose name is chosen between texts makes the rule raise. -/
theorem C96_choice_raises {c : Val} {x y : String} {more : List (Key × Val)} :
    keyName (.dict ((.str "AttributeName", fnIf c (.str x) (.str y)) :: more)) = .error (.typeError "unhashable type") := by
  simp [keyName, getSafe, dlookup, fnIf, itemsSafe, ifBranches, ifBranch, okType, Val.isInst, Val.isStr]

/-- **C96** A definition whose name is not a text silences the rule. -/
theorem C96_silent {kvs : List (Key × Val)} {before after : List Val} {a : List (Key × Val)} {path : Path} {sc : Option Scenario} {ns : List String}
    (hd : dlookup (Key.str "AttributeDefinitions") kvs = some (.list (before ++ .dict a :: after))) (hb : attributeNames before = .ok (some ns))
    (ha : ∀ n, dlookup (Key.str "AttributeName") a ≠ some (.str n)) : tableSet path (sc, .dict kvs) = .ok [] := by
  have hn : ∀ (l : List Val) (ms : List String), attributeNames l = .ok (some ms) → attributeNames (l ++ .dict a :: after) = .ok none := by
    intro l
    induction l with
    | nil =>
      intro _ _
      simp only [List.nil_append, attributeNames, Val.getD]
      cases h : dlookup (Key.str "AttributeName") a with
      | none => rfl
      | some w =>
        cases w with
        | str n => exact absurd h (ha n)
        | _ => rfl
    | cons y l ih =>
      intro ms h
      rw [List.cons_append, attributeNames]
      rw [attributeNames] at h
      cases hy : y.getD "AttributeName" .none with
      | error e => rw [hy] at h; cases h
      | ok w =>
        rw [hy] at h
        cases w with
        | str n =>
          simp only at h ⊢
          cases hl : attributeNames l with
          | error e => rw [hl] at h; cases h
          | ok o =>
            cases o with
            | none => rw [hl] at h; cases h
            | some ks => rw [ih ks hl]; rfl
        | _ => cases h
  simp [tableSet, hd, iterOf, hn _ _ hb]

/-! ### Examples -/

/-- a table with a key that is there under a condition -/
def exKeyed : List (Key × Val) :=
  [(.str "AttributeDefinitions", .list (["A", "B"].map exAttr)),
   (.str "KeySchema", .list [exAttr "A", fnIf (.str "C1") (exAttr "B") noValue])]

theorem exKeyed_of : TableOf PlainSchema exKeyed where
  wf := by simp [Val.WF, Val.WFDict, Val.WFList, exKeyed, exAttr, fnIf, noValue]
  plain := ⟨by simp [exKeyed], by simp [exKeyed], by
    intro kv hkv
    simp only [exKeyed, List.mem_cons, List.not_mem_nil, or_false] at hkv
    rcases hkv with rfl | rfl <;> simp [Proper, ProperItems, ProperIf, exAttr, fnIf, noValue]⟩
  defs := by
    intro v hv
    simp [exKeyed] at hv
    subst hv
    exact exAttrs_of ["A", "B"]
  keys := by
    intro v hv
    simp [exKeyed] at hv
    subst hv
    refine ⟨by simp [noValue], ?_, fun σ => .inr ⟨_, _, .here list_notIf, ?_⟩⟩
    · intro xs e
      injection e with e
      subst e
      simp [exAttr, fnIf, noValue]
    · intro x hx
      simp only [List.mem_cons, List.not_mem_nil, or_false] at hx
      rcases hx with rfl | rfl
      · exact ⟨_, _, .here (exAttr_notIf _), fun _ => ⟨_, exAttr_of _⟩⟩
      · cases hc : σ "C1" with
        | true => exact ⟨_, _, .left hc (.here (exAttr_notIf _)), fun _ => ⟨_, exAttr_of _⟩⟩
        | false => exact ⟨_, _, .right hc (.here noValue_notIf), fun h => absurd rfl h⟩
  indexes := by
    intro p v hp hv
    simp only [exKeyed, List.mem_cons, Prod.mk.injEq, Key.str.injEq, List.not_mem_nil, or_false] at hv
    rcases hv with ⟨rfl, _⟩ | ⟨rfl, _⟩ <;> simp at hp

theorem exKeyed_cond {c : String} (h : GroupCond exKeyed tableProps c) : c = "C1" := by
  obtain ⟨p, _, v, hv, ha⟩ := h
  simp only [exKeyed, List.mem_cons, Prod.mk.injEq, Key.str.injEq, List.not_mem_nil, or_false] at hv
  have hx : ∀ n, ¬ Asks c (exAttr n) := by
    intro n h
    generalize hz : exAttr n = z at h
    cases h <;> simp [exAttr, fnIf] at hz
  rcases hv with ⟨_, rfl⟩ | ⟨_, rfl⟩
  · generalize hl : Val.list _ = l at ha
    cases ha with
    | item hm h =>
      injection hl with hl
      subst hl
      obtain ⟨n, _, rfl⟩ := List.mem_map.1 hm
      exact absurd h (hx n)
    | _ => simp [fnIf] at hl
  · generalize hl : Val.list _ = l at ha
    cases ha with
    | item hm h =>
      injection hl with hl
      subst hl
      simp only [List.mem_cons, List.not_mem_nil, or_false] at hm
      rcases hm with rfl | rfl
      · exact absurd h (hx _)
      · generalize hz : fnIf _ _ _ = z at h
        cases h with
        | here => simp [fnIf] at hz; exact hz.1.symm
        | left h => simp [fnIf] at hz; obtain ⟨_, rfl, _⟩ := hz; exact absurd h (hx _)
        | right h =>
          simp [fnIf] at hz
          obtain ⟨_, _, rfl⟩ := hz
          generalize hz : noValue = z at h
          cases h <;> simp [noValue, fnIf] at hz
        | item => simp [fnIf] at hz
    | _ => simp [fnIf] at hl

/-- the deployment without the condition is reported, and the finding lists what it has -/
example : tableCheck (fun _ s => s) List.eraseDups exOneTable (.dict exKeyed) [] = .ok [⟨[], sortedSet ["A", "B"], sortedSet ["A"]⟩] := rfl

example : ∃ r ∈ [(⟨[], sortedSet ["A", "B"], sortedSet ["A"]⟩ : TableReport)], TableFinding (fun _ => false) exKeyed [] r :=
  C96_complete_partial (H := exHash) (fuel := 5) (enum := fun _ s => s) (order := List.eraseDups) (t := exOne) (tb := exOneTable) setOrder_eraseDups
    exKeyed_of (exOne_deployment (s := "b") (.inr rfl) (fun c hc => exKeyed_cond hc) rfl) rfl (by
      intro h
      have hd : Defines (fun _ => false) exKeyed "B" := ⟨_, _, List.mem_cons_self, exAttrs_item.2 ⟨"B", by simp, rfl⟩, exAttr_of "B"⟩
      rcases (h "B").1 hd with ⟨v, u, hv, ⟨q, xs, x, q', h1, h2, h3, h4⟩, hn⟩ | ⟨p, v, ix, hp, hv, _⟩
      · simp [exKeyed] at hv
        subst hv
        have := chosen_only h1 (.here list_notIf)
        injection this with this
        subst this
        simp only [List.mem_cons, List.not_mem_nil, or_false] at h2
        rcases h2 with rfl | rfl
        · have := chosen_only h3 (.here (exAttr_notIf _))
          subst this
          exact absurd (exAttr_only hn) (by decide)
        · exact h4 (chosen_only h3 (.right rfl (.here noValue_notIf)))
      · simp only [exKeyed, List.mem_cons, Prod.mk.injEq, Key.str.injEq, List.not_mem_nil, or_false] at hv
        rcases hv with ⟨rfl, _⟩ | ⟨rfl, _⟩ <;> simp at hp)

/-- a definition by reference silences the rule -/
example : tableSet [] (none, .dict [(.str "AttributeDefinitions", .list [.dict [(.str "AttributeName", .dict [(.str "Ref", .str "P")])]])]) = .ok [] :=
  C96_silent (before := []) (after := []) (ns := []) rfl rfl (by simp [dlookup])

/-- C96: a key without a name names nothing. -/
theorem C96_unnamed {kvs : List (Key × Val)} (h : dlookup (Key.str "AttributeName") kvs = none) :
    keyName (.dict kvs) = .ok [] := by
  simp [keyName, getSafe, h]

example : dlookup (Key.str "AttributeName") [(Key.str "KeyType", Val.str "HASH")] = none := rfl

end CfnLint
