import Verif.Model.PropSets
import Verif.Spec.PropSets
import Verif.Lemmas.Project
import Verif.Lemmas.Leaves
import Verif.Lemmas.Graph
import Verif.Lemmas.Dict
/- Lemmas for the rules about which properties an object has. -/
namespace CfnLint
open Spec

theorem removed_not_if {σ : String → Bool} {v : Val} (hn : ¬ IsIf v) : Removed σ v ↔ v = noValue := by
  constructor
  · intro h
    cases h with
    | here => rfl
    | left => exact absurd ⟨_, rfl⟩ hn
    | right => exact absurd ⟨_, rfl⟩ hn
  · rintro rfl; exact .here

theorem removed_fnIf {σ : String → Bool} {c : String} {a b : Val} :
    Removed σ (fnIf (.str c) a b) ↔ (σ c = true ∧ Removed σ a) ∨ (σ c = false ∧ Removed σ b) := by
  constructor
  · intro h
    generalize hv : fnIf (.str c) a b = v at h
    cases h with
    | here => simp [fnIf, noValue] at hv
    | left h1 h2 => simp only [fnIf, Val.dict.injEq, List.cons.injEq, Prod.mk.injEq, Val.list.injEq, Val.str.injEq] at hv
                    obtain ⟨⟨_, rfl, rfl, rfl, _⟩, _⟩ := hv
                    exact .inl ⟨h1, h2⟩
    | right h1 h2 => simp only [fnIf, Val.dict.injEq, List.cons.injEq, Prod.mk.injEq, Val.list.injEq, Val.str.injEq] at hv
                     obtain ⟨⟨_, rfl, rfl, rfl, _⟩, _⟩ := hv
                     exact .inr ⟨h1, h2⟩
  · rintro (⟨h1, h2⟩ | ⟨h1, h2⟩)
    · exact .left h1 h2
    · exact .right h1 h2

theorem properIf_inv {v : Val} (h : ProperIf v) : ∃ c a b, v = .list [.str c, a, b] ∧ Proper a ∧ Proper b := by
  unfold ProperIf at h
  split at h
  · exact ⟨_, _, _, rfl, h⟩
  · cases h

theorem lookupBranch_str (sc : Scenario) (c : String) : lookupBranch sc (.str c) = .ok (sc.fn c) := rfl

mutual
/-- what becomes of a proper value: it is removed only when all truth values that agree remove it, and it is removed
when the scenario knows the conditions -/
theorem valueIn_proper (sc : Scenario) : ∀ v : Val, Proper v → ∃ w, valueIn sc v = .ok w ∧
    (∀ σ : String → Bool, (∀ c x, sc.fn c = some x → σ c = x) → w = .none → Removed σ v) ∧
    (∀ σ : String → Bool, (∀ c, Asks c v → sc.fn c = some (σ c)) → Removed σ v → w = .none)
  | .dict [], _ => ⟨_, rfl, by simp, by
      intro σ _ h; rw [removed_not_if (by rintro ⟨_, h⟩; simp at h)] at h; simp [noValue] at h⟩
  | .dict [(k, v)], h => by
    rw [Proper] at h
    rw [valueIn]
    by_cases hk : k = .str "Fn::If"
    · subst hk
      obtain ⟨c, a, b, rfl, ha, hb⟩ := properIf_inv (h rfl)
      obtain ⟨wa, ea, a1, a2⟩ := valueIn_proper sc a ha
      obtain ⟨wb, eb, b1, b2⟩ := valueIn_proper sc b hb
      rw [if_pos rfl, valueIf, lookupBranch_str]
      change ∃ w, _ ∧ (∀ σ, _ → _ → Removed σ (fnIf (.str c) a b)) ∧ (∀ σ, (∀ d, Asks d (fnIf (.str c) a b) → _) →
        Removed σ (fnIf (.str c) a b) → _)
      cases hc : sc.fn c with
      | none =>
        refine ⟨_, rfl, by simp, ?_⟩
        intro σ hσ
        have := hσ c .here
        rw [hc] at this
        cases this
      | some x =>
        cases x with
        | true =>
          refine ⟨wa, ea, fun σ hσ hw => .left (hσ c true hc) (a1 σ hσ hw), ?_⟩
          intro σ hσ hr
          have hx := hσ c .here
          rw [hc] at hx
          injection hx with hx
          rw [removed_fnIf] at hr
          rcases hr with ⟨_, hr⟩ | ⟨hf, _⟩
          · exact a2 σ (fun d hd => hσ d (.left hd)) hr
          · rw [hf] at hx; cases hx
        | false =>
          refine ⟨wb, eb, fun σ hσ hw => .right (hσ c false hc) (b1 σ hσ hw), ?_⟩
          intro σ hσ hr
          have hx := hσ c .here
          rw [hc] at hx
          injection hx with hx
          rw [removed_fnIf] at hr
          rcases hr with ⟨hf, _⟩ | ⟨_, hr⟩
          · rw [hf] at hx; cases hx
          · exact b2 σ (fun d hd => hσ d (.right hd)) hr
    · rw [if_neg hk]
      have hn : ¬ IsIf (.dict [(k, v)]) := by
        rintro ⟨w, hw⟩
        simp at hw
        exact hk hw.1
      by_cases hv : k = .str "Ref" ∧ v = .str "AWS::NoValue"
      · rw [if_pos hv]
        obtain ⟨rfl, rfl⟩ := hv
        exact ⟨_, rfl, fun _ _ _ => .here, fun _ _ _ => rfl⟩
      · rw [if_neg hv]
        refine ⟨_, rfl, by simp, ?_⟩
        intro σ _ hr
        rw [removed_not_if hn] at hr
        simp [noValue] at hr
        exact absurd hr hv
  | .dict (x :: y :: zs), _ => ⟨_, rfl, by simp, by
      intro σ _ h; rw [removed_not_if (by rintro ⟨_, h⟩; simp at h)] at h; simp [noValue] at h⟩
  | .list xs, h => by
    rw [Proper] at h
    obtain ⟨ys, hy⟩ := valuesIn_proper sc xs h
    rw [valueIn, hy]
    exact ⟨_, rfl, by simp, by
      intro σ _ h; rw [removed_not_if (by rintro ⟨_, h⟩; simp at h)] at h; simp [noValue] at h⟩
  | .none, h => by rw [Proper] at h; cases h
  | .bool _, _ => ⟨_, rfl, by simp, by
      intro σ _ h; rw [removed_not_if (by rintro ⟨_, h⟩; simp at h)] at h; simp [noValue] at h⟩
  | .int _, _ => ⟨_, rfl, by simp, by
      intro σ _ h; rw [removed_not_if (by rintro ⟨_, h⟩; simp at h)] at h; simp [noValue] at h⟩
  | .flt _, _ => ⟨_, rfl, by simp, by
      intro σ _ h; rw [removed_not_if (by rintro ⟨_, h⟩; simp at h)] at h; simp [noValue] at h⟩
  | .str _, _ => ⟨_, rfl, by simp, by
      intro σ _ h; rw [removed_not_if (by rintro ⟨_, h⟩; simp at h)] at h; simp [noValue] at h⟩
theorem valuesIn_proper (sc : Scenario) : ∀ xs : List Val, ProperItems xs → ∃ ys, valuesIn sc xs = .ok ys
  | [], _ => ⟨_, rfl⟩
  | x :: xs, h => by
    rw [ProperItems] at h
    obtain ⟨w, hw, _⟩ := valueIn_proper sc x h.1
    obtain ⟨ys, hy⟩ := valuesIn_proper sc xs h.2
    rw [valuesIn, hw, hy]
    exact ⟨_, rfl⟩
end

theorem propsIn_keys (sc : Scenario) : ∀ (kvs acc : List (Key × Val)), (∀ kv ∈ kvs, Proper kv.2) →
    ∃ l, propsIn sc kvs acc = .ok l ∧ ∀ k, k ∈ l.map Prod.fst ↔
      k ∈ acc.map Prod.fst ∨ ∃ v, (k, v) ∈ kvs ∧ valueIn sc v ≠ .ok .none
  | [], acc, _ => ⟨acc, rfl, by simp⟩
  | (k0, v0) :: rest, acc, h => by
    obtain ⟨w, hw, _⟩ := valueIn_proper sc v0 (h _ List.mem_cons_self)
    obtain ⟨l, hl, hk⟩ := propsIn_keys sc rest (if w = .none then acc else dset k0 w acc)
      (fun kv hkv => h kv (List.mem_cons_of_mem _ hkv))
    refine ⟨l, by rw [propsIn, hw]; exact hl, ?_⟩
    intro k
    rw [hk]
    by_cases hwn : w = .none
    · subst hwn
      rw [if_pos rfl]
      simp only [List.mem_cons, Prod.mk.injEq]
      constructor
      · rintro (h1 | ⟨v, h1, h2⟩)
        · exact .inl h1
        · exact .inr ⟨v, .inr h1, h2⟩
      · rintro (h1 | ⟨v, ⟨rfl, rfl⟩ | h1, h2⟩)
        · exact .inl h1
        · exact absurd hw h2
        · exact .inr ⟨v, h1, h2⟩
    · rw [if_neg hwn, dset_keys]
      have hne : valueIn sc v0 ≠ .ok .none := by rw [hw]; intro h; injection h with h; exact hwn h
      simp only [List.mem_cons, Prod.mk.injEq]
      constructor
      · rintro (h1 | ⟨v, h1, h2⟩)
        · split at h1
          · exact .inl h1
          · rw [List.mem_append] at h1
            rcases h1 with h1 | h1
            · exact .inl h1
            · rw [List.mem_singleton] at h1
              subst h1
              exact .inr ⟨v0, .inl ⟨rfl, rfl⟩, hne⟩
        · exact .inr ⟨v, .inr h1, h2⟩
      · rintro (h1 | ⟨v, ⟨rfl, rfl⟩ | h1, h2⟩)
        · left
          split
          · exact h1
          · exact List.mem_append_left _ h1
        · left
          split
          · assumption
          · exact List.mem_append_right _ List.mem_cons_self
        · exact .inr ⟨v, h1, h2⟩

theorem valueFromScenario_keys (sc : Scenario) {kvs : List (Key × Val)} (hn : Key.str "Fn::If" ∉ kvs.map Prod.fst)
    (hp : ∀ kv ∈ kvs, Proper kv.2) : ∃ l, valueFromScenario sc (.dict kvs) = .ok (.dict l) ∧
      ∀ k, k ∈ l.map Prod.fst ↔ ∃ v, (k, v) ∈ kvs ∧ valueIn sc v ≠ .ok .none := by
  obtain ⟨l, hl, hk⟩ := propsIn_keys sc kvs [] hp
  refine ⟨l, ?_, by simpa using hk⟩
  unfold valueFromScenario
  split
  · rename_i k v heq
    injection heq with heq
    subst heq
    rw [if_neg (by rintro ⟨rfl, _⟩; simp at hn), hl]
  · rename_i heq
    injection heq with heq
    subst heq
    rw [hl]
  · rename_i h
    exact absurd rfl (h _)

/-- the keys left are the properties present, for truth values the scenario determines -/
theorem scenario_hasProp {sc : Scenario} {kvs : List (Key × Val)} {σ : String → Bool} {n : String} {l : List (Key × Val)}
    (hp : ∀ kv ∈ kvs, Proper kv.2)
    (hk : ∀ k, k ∈ l.map Prod.fst ↔ ∃ v, (k, v) ∈ kvs ∧ valueIn sc v ≠ .ok .none)
    (hσ : ∀ c x, sc.fn c = some x → σ c = x)
    (hc : ∀ v, (Key.str n, v) ∈ kvs → ∀ c, Asks c v → ∃ x, sc.fn c = some x) :
    Key.str n ∈ l.map Prod.fst ↔ HasProp σ kvs n := by
  rw [hk]
  constructor
  · rintro ⟨v, hm, hv⟩
    refine ⟨v, hm, fun hr => hv ?_⟩
    obtain ⟨w, hw, _, h2⟩ := valueIn_proper sc v (hp _ hm)
    rw [hw, h2 σ (fun c hr => by obtain ⟨x, hx⟩ := hc v hm c hr; rw [hx, hσ c x hx]) hr]
  · rintro ⟨v, hm, hv⟩
    refine ⟨v, hm, fun he => hv ?_⟩
    obtain ⟨w, hw, h1, _⟩ := valueIn_proper sc v (hp _ hm)
    rw [hw] at he
    injection he with he
    exact h1 σ hσ he

/-- a property present under the truth values is left whatever else the scenario knows -/
theorem scenario_keeps {sc : Scenario} {kvs : List (Key × Val)} {σ : String → Bool} {n : String} {l : List (Key × Val)}
    (hp : ∀ kv ∈ kvs, Proper kv.2)
    (hk : ∀ k, k ∈ l.map Prod.fst ↔ ∃ v, (k, v) ∈ kvs ∧ valueIn sc v ≠ .ok .none)
    (hσ : ∀ c x, sc.fn c = some x → σ c = x) (h : HasProp σ kvs n) : Key.str n ∈ l.map Prod.fst := by
  rw [hk]
  obtain ⟨v, hm, hv⟩ := h
  refine ⟨v, hm, fun he => hv ?_⟩
  obtain ⟨w, hw, h1, _⟩ := valueIn_proper sc v (hp _ hm)
  rw [hw] at he
  injection he with he
  exact h1 σ hσ he

theorem objectsAll_keys {kvs : List (Key × Val)} (hn : Key.str "Fn::If" ∉ kvs.map Prod.fst)
    (hp : ∀ kv ∈ kvs, Proper kv.2) : ∀ scs : List Scenario, ∃ sets, objectsAll (.dict kvs) scs = .ok sets ∧
      ∀ s, s ∈ sets ↔ ∃ sc ∈ scs, ∃ l, valueFromScenario sc (.dict kvs) = .ok (.dict l) ∧ l ≠ [] ∧ s = (some sc, .dict l)
  | [] => ⟨[], rfl, by simp⟩
  | sc :: rest => by
    obtain ⟨l, hl, _⟩ := valueFromScenario_keys sc hn hp
    obtain ⟨sets, hs, hm⟩ := objectsAll_keys hn hp rest
    rw [objectsAll, hl, hs]
    refine ⟨_, rfl, ?_⟩
    intro s
    have hcons : (s ∈ (if (Val.dict l).truthy then (some sc, Val.dict l) :: sets else sets)) ↔
        (l ≠ [] ∧ s = (some sc, .dict l)) ∨ s ∈ sets := by
      cases l with
      | nil => simp [Val.truthy]
      | cons x xs => simp [Val.truthy]
    rw [hcons, hm]
    constructor
    · rintro (⟨h1, h2⟩ | ⟨sc', h1, l', h2⟩)
      · exact ⟨sc, List.mem_cons_self, l, hl, h1, h2⟩
      · exact ⟨sc', List.mem_cons_of_mem _ h1, l', h2⟩
    · rintro ⟨sc', h1, l', h2, h3, h4⟩
      rw [List.mem_cons] at h1
      rcases h1 with rfl | h1
      · rw [hl] at h2
        injection h2 with h2
        injection h2 with h2
        subst h2
        exact .inl ⟨h3, h4⟩
      · exact .inr ⟨sc', h1, l', h2, h3, h4⟩

theorem objectsWithout_keys {kvs : List (Key × Val)} (hn : Key.str "Fn::If" ∉ kvs.map Prod.fst)
    (hr : Val.dict kvs ≠ noValue) (hp : ∀ kv ∈ kvs, Proper kv.2) (scs : List Scenario) :
    ∃ sets, objectsWithout scs (.dict kvs) = .ok sets ∧ ∀ s, s ∈ sets ↔ (scs = [] ∧ s = (none, .dict kvs)) ∨
      ∃ sc ∈ scs, ∃ l, valueFromScenario sc (.dict kvs) = .ok (.dict l) ∧ l ≠ [] ∧ s = (some sc, .dict l) := by
  unfold objectsWithout
  rw [if_neg (by simp [Val.isDict])]
  cases scs with
  | nil =>
    rw [if_pos (by rfl), if_neg (show ¬ _ = Val.dict [(Key.str "Ref", Val.str "AWS::NoValue")] from hr)]
    exact ⟨_, rfl, by simp⟩
  | cons sc rest =>
    rw [if_neg (by simp)]
    obtain ⟨sets, hs, hm⟩ := objectsAll_keys hn hp (sc :: rest)
    exact ⟨sets, hs, fun s => by rw [hm]; simp⟩

/-! ### The conditions looked at -/

mutual
theorem mem_propConds (c : String) : ∀ v : Val, c ∈ propConds v ↔ Asks c v
  | .dict [] => by
    rw [propConds.eq_3 _ (by simp) (by simp)]
    refine ⟨fun h => (by cases h), fun h => by generalize hv : Val.dict [] = v at h; cases h <;> simp [fnIf] at hv⟩
  | .dict [(k, v)] => by
    rw [propConds]
    by_cases hk : k = .str "Fn::If"
    · subst hk
      rw [if_pos rfl]
      exact mem_propIfConds c v
    · rw [if_neg hk]
      refine ⟨fun h => (by cases h), fun h => ?_⟩
      generalize hv : Val.dict [(k, v)] = w at h
      cases h <;> simp [fnIf] at hv <;> exact absurd hv.1 hk
  | .dict (x :: y :: zs) => by
    rw [propConds.eq_3 _ (by simp) (by simp)]
    refine ⟨fun h => (by cases h), fun h => ?_⟩
    generalize hv : Val.dict (x :: y :: zs) = v at h
    cases h <;> simp [fnIf] at hv
  | .list xs => by
    rw [propConds, mem_propListConds c xs]
    constructor
    · rintro ⟨x, h1, h2⟩; exact .item h1 h2
    · intro h
      generalize hv : Val.list xs = v at h
      cases h with
      | item h1 h2 => injection hv with hv; subst hv; exact ⟨_, h1, h2⟩
      | _ => simp [fnIf] at hv
  | .none => by
    rw [propConds.eq_3 _ (by simp) (by simp)]
    refine ⟨fun h => (by cases h), fun h => by generalize hv : Val.none = v at h; cases h <;> simp [fnIf] at hv⟩
  | .bool x => by
    rw [propConds.eq_3 _ (by simp) (by simp)]
    refine ⟨fun h => (by cases h), fun h => by generalize hv : Val.bool x = v at h; cases h <;> simp [fnIf] at hv⟩
  | .int x => by
    rw [propConds.eq_3 _ (by simp) (by simp)]
    refine ⟨fun h => (by cases h), fun h => by generalize hv : Val.int x = v at h; cases h <;> simp [fnIf] at hv⟩
  | .flt x => by
    rw [propConds.eq_3 _ (by simp) (by simp)]
    refine ⟨fun h => (by cases h), fun h => by generalize hv : Val.flt x = v at h; cases h <;> simp [fnIf] at hv⟩
  | .str x => by
    rw [propConds.eq_3 _ (by simp) (by simp)]
    refine ⟨fun h => (by cases h), fun h => by generalize hv : Val.str x = v at h; cases h <;> simp [fnIf] at hv⟩
theorem mem_propIfConds (c : String) : ∀ v : Val, c ∈ propIfConds v ↔ Asks c (.dict [(.str "Fn::If", v)])
  | .list [.str d, a, b] => by
    rw [propIfConds, List.mem_cons, List.mem_append, mem_propConds c a, mem_propConds c b]
    change _ ↔ Asks c (fnIf (.str d) a b)
    constructor
    · rintro (rfl | h | h)
      · exact .here
      · exact .left h
      · exact .right h
    · intro h
      generalize hv : fnIf (.str d) a b = v at h
      cases h with
      | item => simp [fnIf] at hv
      | here => simp [fnIf] at hv; exact .inl hv.1.symm
      | left h => simp [fnIf] at hv; obtain ⟨rfl, rfl, rfl⟩ := hv; exact .inr (.inl h)
      | right h => simp [fnIf] at hv; obtain ⟨rfl, rfl, rfl⟩ := hv; exact .inr (.inr h)
  | v => by
    by_cases hv : ∃ d a b, v = .list [.str d, a, b]
    · obtain ⟨d, a, b, rfl⟩ := hv
      rw [propIfConds, List.mem_cons, List.mem_append, mem_propConds c a, mem_propConds c b]
      change _ ↔ Asks c (fnIf (.str d) a b)
      constructor
      · rintro (rfl | h | h)
        · exact .here
        · exact .left h
        · exact .right h
      · intro h
        generalize hv : fnIf (.str d) a b = v at h
        cases h with
        | item => simp [fnIf] at hv
        | here => simp [fnIf] at hv; exact .inl hv.1.symm
        | left h => simp [fnIf] at hv; obtain ⟨rfl, rfl, rfl⟩ := hv; exact .inr (.inl h)
        | right h => simp [fnIf] at hv; obtain ⟨rfl, rfl, rfl⟩ := hv; exact .inr (.inr h)
    · unfold propIfConds
      split
      · exact absurd ⟨_, _, _, rfl⟩ hv
      · refine ⟨fun h => (by cases h), fun h => ?_⟩
        generalize hw : Val.dict [(.str "Fn::If", v)] = w at h
        cases h with
        | item => simp at hw
        | here => simp [fnIf] at hw; exact absurd ⟨_, _, _, hw⟩ hv
        | left => simp [fnIf] at hw; exact absurd ⟨_, _, _, hw⟩ hv
        | right => simp [fnIf] at hw; exact absurd ⟨_, _, _, hw⟩ hv
theorem mem_propListConds (c : String) : ∀ xs : List Val, c ∈ propListConds xs ↔ ∃ x ∈ xs, Asks c x
  | [] => by simp [propListConds]
  | x :: xs => by
    rw [propListConds, List.mem_append, mem_propConds c x, mem_propListConds c xs]
    simp
end

theorem mem_objectConds {c : String} {kvs : List (Key × Val)} (hn : Key.str "Fn::If" ∉ kvs.map Prod.fst) :
    c ∈ objectConds (.dict kvs) ↔ ObjectCond kvs c := by
  unfold ObjectCond
  unfold objectConds
  split
  · rename_i k v heq
    injection heq with heq
    subst heq
    rw [if_neg (by rintro rfl; simp at hn), mem_propConds]
    simp
  · rename_i heq
    injection heq with heq
    subst heq
    simp only [List.mem_flatMap, mem_propConds]
  · rename_i h
    exact absurd rfl (h _)

end CfnLint
