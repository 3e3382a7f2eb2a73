import Verif.Lemmas.SameText
import Verif.Props.ListSpecs
/- C83: equal elements of lists. -/
namespace CfnLint
open Spec

/-! ### The loop over the elements -/

/-- where a repeated element is reported -/
def dupReport (path : Path) (sc : Option Scenario) (i : Nat) : ListReport :=
  if (sc.getD []).isEmpty then ⟨path ++ [.int i], none⟩ else ⟨path, sc⟩

theorem mem_dupLoop {path : Path} {sc : Option Scenario} {r : ListReport} : ∀ {xs seen : List Val} {i : Nat},
    r ∈ dupLoop path sc i seen xs ↔ ∃ j x, xs[j]? = some x ∧
      (sortedKeys x ∈ seen ∨ ∃ k y, k < j ∧ xs[k]? = some y ∧ sortedKeys y = sortedKeys x) ∧ r = dupReport path sc (i + j)
  | [], seen, i => by simp [dupLoop]
  | z :: zs, seen, i => by
    rw [dupLoop, List.mem_append, mem_dupLoop]
    have hhead : (r ∈ (if sortedKeys z ∈ seen then
        (if (sc.getD []).isEmpty then [⟨path ++ [.int i], none⟩] else [⟨path, sc⟩]) else [] : List ListReport)) ↔
        sortedKeys z ∈ seen ∧ r = dupReport path sc i := by
      unfold dupReport
      by_cases h1 : sortedKeys z ∈ seen
      · by_cases h2 : (sc.getD []).isEmpty = true <;> simp [h1, h2]
      · simp [h1]
    rw [hhead]
    constructor
    · rintro (⟨h1, h2⟩ | ⟨j, x, hx, h1, h2⟩)
      · exact ⟨0, z, rfl, .inl h1, h2⟩
      · refine ⟨j + 1, x, by simpa using hx, ?_, by rw [h2]; congr 1; omega⟩
        rcases h1 with h1 | ⟨k, y, hk, hy, e⟩
        · rw [List.mem_append, List.mem_singleton] at h1
          rcases h1 with h1 | h1
          · exact .inl h1
          · exact .inr ⟨0, z, by omega, rfl, h1.symm⟩
        · exact .inr ⟨k + 1, y, by omega, by simpa using hy, e⟩
    · rintro ⟨j, x, hx, h1, h2⟩
      cases j with
      | zero =>
        simp only [List.getElem?_cons_zero, Option.some.injEq] at hx
        subst hx
        rcases h1 with h1 | ⟨k, y, hk, -⟩
        · exact .inl ⟨h1, h2⟩
        · omega
      | succ j =>
        refine .inr ⟨j, x, by simpa using hx, ?_, by rw [h2]; congr 1; omega⟩
        rcases h1 with h1 | ⟨k, y, hk, hy, e⟩
        · exact .inl (List.mem_append_left _ h1)
        · cases k with
          | zero =>
            simp only [List.getElem?_cons_zero, Option.some.injEq] at hy
            subst hy
            exact .inl (List.mem_append_right _ (List.mem_singleton.2 e.symm))
          | succ k => exact .inr ⟨k, y, by omega, by simpa using hy, e⟩

theorem mem_dups {path : Path} {sc : Option Scenario} {xs : List Val} (hw : (Val.list xs).WF) {r : ListReport} :
    r ∈ dupsIn path (sc, .list xs) ↔ ∃ i, Repeats xs i ∧ r = dupReport path sc i := by
  unfold dupsIn
  rw [mem_dupLoop]
  simp only [List.not_mem_nil, false_or, Nat.zero_add]
  constructor
  · rintro ⟨i, x, hx, ⟨j, y, hj, hy, e⟩, rfl⟩
    exact ⟨i, ⟨j, y, x, hj, hy, hx,
      (sortedKeys_iff (wfList_at hw (List.mem_of_getElem? hy)) (wfList_at hw (List.mem_of_getElem? hx))).1 e⟩, rfl⟩
  · rintro ⟨i, ⟨j, y, x, hj, hy, hx, e⟩, rfl⟩
    exact ⟨i, x, hx, ⟨j, y, hj, hy,
      (sortedKeys_iff (wfList_at hw (List.mem_of_getElem? hy)) (wfList_at hw (List.mem_of_getElem? hx))).2 e⟩, rfl⟩

/-! ### The objects of an `Fn::If` -/

theorem mem_objectsAll {obj : Val} : ∀ {scs : List Scenario} {sets : List (Option Scenario × Val)}, objectsAll obj scs = .ok sets →
    ∀ s, s ∈ sets ↔ ∃ sc ∈ scs, ∃ w, valueFromScenario sc obj = .ok w ∧ w.truthy = true ∧ s = (some sc, w)
  | [], sets, h, s => by rw [objectsAll] at h; cases h; simp
  | sc :: rest, sets, h, s => by
    rw [objectsAll] at h
    cases hv : valueFromScenario sc obj with
    | error e => rw [hv] at h; cases h
    | ok w =>
      rw [hv] at h
      cases hr : objectsAll obj rest with
      | error e => simp only [hr] at h; cases h
      | ok l =>
        simp only [hr] at h
        cases h
        have ih := mem_objectsAll hr s
        constructor
        · intro hs
          by_cases ht : w.truthy = true
          · rw [if_pos ht, List.mem_cons] at hs
            rcases hs with rfl | hs
            · exact ⟨sc, List.mem_cons_self, w, hv, ht, rfl⟩
            · obtain ⟨sc', h1, h2⟩ := ih.1 hs
              exact ⟨sc', List.mem_cons_of_mem _ h1, h2⟩
          · rw [if_neg ht] at hs
            obtain ⟨sc', h1, h2⟩ := ih.1 hs
            exact ⟨sc', List.mem_cons_of_mem _ h1, h2⟩
        · rintro ⟨sc', h1, w', h2, h3, h4⟩
          rcases List.mem_cons.1 h1 with rfl | h1
          · rw [hv] at h2
            cases h2
            rw [if_pos h3]
            exact List.mem_cons.2 (.inl h4)
          · have := ih.2 ⟨sc', h1, w', h2, h3, h4⟩
            split
            · exact List.mem_cons_of_mem _ this
            · exact this

theorem steadyLists_branch {c : String} {a b : Val} (h : SteadyLists (fnIf (.str c) a b)) : SteadyLists a ∧ SteadyLists b := by
  have hp := h.proper
  rw [fnIf, Proper] at hp
  obtain ⟨ha, hb⟩ := (show Proper a ∧ Proper b from by have := hp rfl; rwa [ProperIf] at this)
  exact ⟨⟨ha, fun q xs hl => h.items _ xs (.left hl), fun q kvs hl => h.noIf _ kvs (.left hl)⟩,
    ⟨hb, fun q xs hl => h.items _ xs (.right hl), fun q kvs hl => h.noIf _ kvs (.right hl)⟩⟩

theorem steady_valueIn {sc : Scenario} {x : Val} (h : Steady x) : valueIn sc x = .ok x := by
  obtain ⟨h1, h2, h3, h4⟩ := h
  match x with
  | .dict [(k, v)] =>
    rw [valueIn, if_neg (fun e => h1 ⟨v, by rw [e]⟩), if_neg (by
      rintro ⟨rfl, rfl⟩
      exact h2 rfl)]
  | .list xs => exact absurd rfl (h4 xs)
  | .none => exact absurd rfl h3
  | .dict [] => rw [valueIn.eq_3 _ _ (by simp) (by simp)]
  | .dict (a :: b :: r) => rw [valueIn.eq_3 _ _ (by simp) (by simp)]
  | .bool _ => rw [valueIn.eq_3 _ _ (by simp) (by simp)]
  | .int _ => rw [valueIn.eq_3 _ _ (by simp) (by simp)]
  | .flt _ => rw [valueIn.eq_3 _ _ (by simp) (by simp)]
  | .str _ => rw [valueIn.eq_3 _ _ (by simp) (by simp)]

theorem steady_valuesIn {sc : Scenario} : ∀ {xs : List Val}, (∀ x ∈ xs, Steady x) → valuesIn sc xs = .ok xs
  | [], _ => by rw [valuesIn]
  | x :: xs, h => by
    rw [valuesIn, steady_valueIn (h x List.mem_cons_self), steady_valuesIn (fun y hy => h y (List.mem_cons_of_mem _ hy))]
    simp only
    rw [if_neg (h x List.mem_cons_self).2.2.1]

theorem steady_asks {c : String} {x : Val} (h : Steady x) : ¬ Asks c x := by
  intro ha
  cases ha with
  | here => exact h.1 ⟨_, rfl⟩
  | left => exact h.1 ⟨_, rfl⟩
  | right => exact h.1 ⟨_, rfl⟩
  | item => exact h.2.2.2 _ rfl

theorem asks_branches {c : String} {v : Val} (h : SteadyLists v) : Asks c v ↔ Branches c v := by
  constructor
  · intro ha
    induction ha with
    | here => exact .here
    | left _ ih => exact .left (ih (steadyLists_branch h).1)
    | right _ ih => exact .right (ih (steadyLists_branch h).2)
    | item hx ha _ => exact absurd ha (steady_asks (h.items [] _ ((leaf_of_notIf (by simp [IsIf])).2 ⟨rfl, rfl, by simp [noValue]⟩) _ hx))
  · intro hb
    induction hb with
    | here => exact .here
    | left _ ih => exact .left (ih (steadyLists_branch h).1)
    | right _ ih => exact .right (ih (steadyLists_branch h).2)

/-- the conditions looked at are those of the `Fn::If` and of its branches -/
theorem branchConds_iff {c : String} : ∀ {vs : List Val}, (∀ v ∈ vs, SteadyLists v) → (c ∈ branchConds vs ↔ ∃ v ∈ vs, Asks c v)
  | [], _ => by simp [branchConds]
  | v :: vs, h => by
    have ih := branchConds_iff (c := c) (vs := vs) (fun x hx => h x (List.mem_cons_of_mem _ hx))
    have hv := h v List.mem_cons_self
    have key : ∀ p : Prop, ((p ∨ ∃ v ∈ vs, Asks c v) ↔ ∃ x ∈ v :: vs, Asks c x) ↔ ((p ∨ ∃ v ∈ vs, Asks c v) ↔ (Asks c v ∨ ∃ v ∈ vs, Asks c v)) := by
      intro p
      simp
    match v with
    | .dict kvs =>
      rw [branchConds, List.mem_append, ih, key]
      have : c ∈ kvs.flatMap (fun kv => if kv.1 = Key.str "Fn::If" then propConds (.dict [kv]) else []) ↔ Asks c (.dict kvs) := by
        by_cases hi : IsIf (.dict kvs)
        · obtain ⟨w, e⟩ := hi
          cases e
          simp [mem_propConds]
        · by_cases hnv : Val.dict kvs = noValue
          · cases hnv
            simp only [List.flatMap_cons, List.flatMap_nil, List.append_nil, Key.str.injEq, String.reduceEq, if_false,
              List.not_mem_nil, false_iff]
            exact reached_noValue
          · have hno := hv.noIf [] kvs ((leaf_of_notIf hi).2 ⟨rfl, rfl, hnv⟩)
            constructor
            · intro hm
              obtain ⟨kv, hkv, hc⟩ := List.mem_flatMap.1 hm
              by_cases hk : kv.1 = Key.str "Fn::If"
              · exact absurd (List.mem_map.2 ⟨kv, hkv, hk⟩) hno
              · rw [if_neg hk] at hc; cases hc
            · intro ha
              generalize hd : Val.dict kvs = u at ha
              cases ha with
              | here => exact absurd ⟨_, hd⟩ hi
              | left => exact absurd ⟨_, hd⟩ hi
              | right => exact absurd ⟨_, hd⟩ hi
              | item => cases hd
      rw [this]
    | .list xs =>
      rw [branchConds.eq_3 _ _ (by simp), ih]
      have hna : ¬ Asks c (.list xs) := fun ha => by
        cases (asks_branches hv).1 ha
      simp [hna]
    | .none => rw [branchConds.eq_3 _ _ (by simp), ih]; simp only [List.mem_cons, exists_eq_or_imp]; exact ⟨.inr, fun h => h.resolve_left (fun h => by cases h)⟩
    | .bool _ => rw [branchConds.eq_3 _ _ (by simp), ih]; simp only [List.mem_cons, exists_eq_or_imp]; exact ⟨.inr, fun h => h.resolve_left (fun h => by cases h)⟩
    | .int _ => rw [branchConds.eq_3 _ _ (by simp), ih]; simp only [List.mem_cons, exists_eq_or_imp]; exact ⟨.inr, fun h => h.resolve_left (fun h => by cases h)⟩
    | .flt _ => rw [branchConds.eq_3 _ _ (by simp), ih]; simp only [List.mem_cons, exists_eq_or_imp]; exact ⟨.inr, fun h => h.resolve_left (fun h => by cases h)⟩
    | .str _ => rw [branchConds.eq_3 _ _ (by simp), ih]; simp only [List.mem_cons, exists_eq_or_imp]; exact ⟨.inr, fun h => h.resolve_left (fun h => by cases h)⟩

theorem objectConds_if {c d : String} {a b : Val} (h : SteadyLists (fnIf (.str d) a b)) :
    c ∈ objectConds (fnIf (.str d) a b) ↔ Branches c (fnIf (.str d) a b) := by
  rw [← asks_branches h]
  obtain ⟨ha, hb⟩ := steadyLists_branch h
  unfold fnIf
  have e : objectConds (.dict [(.str "Fn::If", .list [.str d, a, b])]) = d :: branchConds [a, b] := by simp [objectConds]
  rw [e]
  rw [List.mem_cons, branchConds_iff (by
    intro v hv
    simp only [List.mem_cons, List.not_mem_nil, or_false] at hv
    rcases hv with rfl | rfl
    · exact ha
    · exact hb)]
  constructor
  · rintro (rfl | ⟨v, hv, hc⟩)
    · exact .here
    · simp only [List.mem_cons, List.not_mem_nil, or_false] at hv
      rcases hv with rfl | rfl
      · exact .left hc
      · exact .right hc
  · intro hc
    generalize hu : Val.dict [(Key.str "Fn::If", Val.list [.str d, a, b])] = u at hc
    cases hc with
    | here => simp [fnIf] at hu; exact .inl hu.1.symm
    | left hc =>
      simp only [fnIf, Val.dict.injEq, List.cons.injEq, Prod.mk.injEq, true_and, and_true, Val.list.injEq, Val.str.injEq] at hu
      obtain ⟨rfl, rfl, rfl⟩ := hu
      exact .inr ⟨_, by simp, hc⟩
    | right hc =>
      simp only [fnIf, Val.dict.injEq, List.cons.injEq, Prod.mk.injEq, true_and, and_true, Val.list.injEq, Val.str.injEq] at hu
      obtain ⟨rfl, rfl, rfl⟩ := hu
      exact .inr ⟨_, by simp, hc⟩
    | item => cases hu

/-- the list a value is under a scenario, for steady elements -/
theorem valueIn_steady {sc : Scenario} {σ : String → Bool} : ∀ {v w : Val}, SteadyLists v →
    (∀ c, Branches c v → sc.fn c = some (σ c)) → valueIn sc v = .ok w → ∀ xs, w = .list xs ↔ ∃ q, Chosen σ v q (.list xs)
  | .list ys, w, hs, hσ, h, xs => by
    have hi := hs.items [] ys ((leaf_of_notIf (by simp [IsIf])).2 ⟨rfl, rfl, by simp [noValue]⟩)
    rw [valueIn, steady_valuesIn hi] at h
    cases h
    constructor
    · intro e
      cases e
      exact ⟨[], .here (by simp [IsIf])⟩
    · rintro ⟨q, hc⟩
      exact ((chosen_notIf (by simp [IsIf])).1 hc).2.symm
  | .dict [(k, v)], w, hs, hσ, h, xs => by
    rw [valueIn] at h
    by_cases hk : k = .str "Fn::If"
    · subst hk
      rw [if_pos rfl] at h
      have hp := hs.proper
      rw [Proper] at hp
      obtain ⟨c, a, b, rfl, hpa, hpb⟩ := properIf_inv (hp rfl)
      have hc := hσ c .here
      rw [valueIf, lookupBranch_str, hc] at h
      show _ ↔ ∃ q, Chosen σ (fnIf (.str c) a b) q _
      rw [chosen_fnIf]
      obtain ⟨ha, hb⟩ := steadyLists_branch (show SteadyLists (fnIf (.str c) a b) from hs)
      cases hx : σ c with
      | true =>
        rw [hx] at h
        exact valueIn_steady ha (fun d hd => hσ d (.left hd)) h xs
      | false =>
        rw [hx] at h
        exact valueIn_steady hb (fun d hd => hσ d (.right hd)) h xs
    · rw [if_neg hk] at h
      constructor
      · rintro rfl
        split at h <;> cases h
      · rintro ⟨q, hc⟩
        cases ((chosen_notIf (by rintro ⟨x, hx⟩; simp at hx; exact hk hx.1)).1 hc).2
  | .dict [], w, hs, hσ, h, xs => by
    rw [valueIn.eq_3 _ _ (by simp) (by simp)] at h
    cases h
    simp [chosen_notIf (v := .dict []) (by simp [IsIf])]
  | .dict (x :: y :: zs), w, hs, hσ, h, xs => by
    rw [valueIn.eq_3 _ _ (by simp) (by simp)] at h
    cases h
    simp [chosen_notIf (v := .dict (x :: y :: zs)) (by simp [IsIf])]
  | .none, w, hs, hσ, h, xs => by
    rw [valueIn.eq_3 _ _ (by simp) (by simp)] at h
    cases h
    simp [chosen_notIf (v := .none) (by simp [IsIf])]
  | .bool b, w, hs, hσ, h, xs => by
    rw [valueIn.eq_3 _ _ (by simp) (by simp)] at h
    cases h
    simp [chosen_notIf (v := .bool b) (by simp [IsIf])]
  | .int b, w, hs, hσ, h, xs => by
    rw [valueIn.eq_3 _ _ (by simp) (by simp)] at h
    cases h
    simp [chosen_notIf (v := .int b) (by simp [IsIf])]
  | .flt b, w, hs, hσ, h, xs => by
    rw [valueIn.eq_3 _ _ (by simp) (by simp)] at h
    cases h
    simp [chosen_notIf (v := .flt b) (by simp [IsIf])]
  | .str b, w, hs, hσ, h, xs => by
    rw [valueIn.eq_3 _ _ (by simp) (by simp)] at h
    cases h
    simp [chosen_notIf (v := .str b) (by simp [IsIf])]

theorem valueFromScenario_dict {sc : Scenario} {kvs : List (Key × Val)} {w : Val} (hn : ¬ IsIf (.dict kvs))
    (h : valueFromScenario sc (.dict kvs) = .ok w) : ∃ l, w = .dict l := by
  have key : ∀ r : PyM (List (Key × Val)), (match r with
      | .error e => .error e
      | .ok l => .ok (Val.dict l) : PyM Val) = .ok w → ∃ l, w = .dict l := by
    intro r h
    cases r with
    | error e => cases h
    | ok l => cases h; exact ⟨l, rfl⟩
  unfold valueFromScenario at h
  split at h
  · rename_i k v heq
    cases heq
    rw [if_neg (by rintro ⟨rfl, _⟩; exact hn ⟨_, rfl⟩)] at h
    exact key _ h
  · exact key _ h
  · rename_i h'
    exact absurd rfl (h' _)

theorem valueFromScenario_if {sc : Scenario} {c : String} {a b w : Val} (h : valueFromScenario sc (fnIf (.str c) a b) = .ok w) :
    ∃ u, valueIn sc (fnIf (.str c) a b) = .ok u ∧ ∀ xs, w = .list xs ↔ u = .list xs := by
  unfold fnIf at h ⊢
  rw [valueFromScenario, if_pos ⟨rfl, by simp [Val.truthy]⟩] at h
  cases hv : valueIn sc (.dict [(.str "Fn::If", .list [.str c, a, b])]) with
  | error e => rw [hv] at h; cases h
  | ok u =>
    rw [hv] at h
    cases h
    refine ⟨u, rfl, fun xs => ?_⟩
    by_cases hu : u = .none
    · rw [if_pos hu]; simp [hu]
    · rw [if_neg hu]

/-! ### E3037 and I3037 -/

theorem chosen_at {σ : String → Bool} {v w : Val} {q : Path} (h : Chosen σ v q w) : At v q w := by
  induction h with
  | here => exact .here
  | left _ _ ih => exact .key List.mem_cons_self (.idx (i := 1) rfl ih)
  | right _ _ ih => exact .key List.mem_cons_self (.idx (i := 2) rfl ih)

theorem dupReport_scenario {path : Path} {sc : Scenario} {i : Nat} (h : sc ≠ []) : dupReport path (some sc) i = ⟨path, some sc⟩ := by
  unfold dupReport
  rw [if_neg]
  cases sc with
  | nil => exact absurd rfl h
  | cons => simp

/-- the reports about an `Fn::If`: what they say and where they are -/
theorem dupIf_sound {enum : String → List String → List String} {order : List String → List String} {tb : CondTable} {c : String} {a b : Val}
    {path : Path} {out : List ListReport} (hso : SetOrder order) (hw : (fnIf (.str c) a b).WF) (hst : SteadyLists (fnIf (.str c) a b))
    (h : dupValue enum order tb (fnIf (.str c) a b) path = .ok out) {r : ListReport} (hr : r ∈ out) :
    r.path = path ∧ ((∀ d, Branches d (fnIf (.str c) a b) → Decided r.scenario d) →
      ∀ σ, Agrees r.scenario σ → ∃ q xs i, Chosen σ (fnIf (.str c) a b) q (.list xs) ∧ Repeats xs i) := by
  unfold dupValue at h
  rw [fnIf] at h
  simp only at h
  rw [← fnIf] at h
  unfold objectWithoutConditions at h
  cases hs : getScenarios enum tb ((order (objectConds (fnIf (.str c) a b))).map Key.str) with
  | error e => rw [hs] at h; cases h
  | ok scs =>
    rw [hs] at h
    cases ho : objectsWithout scs (fnIf (.str c) a b) with
    | error e => simp only [ho] at h; cases h
    | ok sets =>
      simp only [ho] at h
      cases h
      obtain ⟨s, hs', hm⟩ := List.mem_flatMap.1 hr
      unfold objectsWithout at ho
      rw [if_neg (by simp [Val.isDict, fnIf])] at ho
      by_cases hemp : scs.isEmpty = true
      · rw [if_pos hemp, if_neg (by simp [fnIf])] at ho
        cases ho
        cases List.mem_singleton.1 hs'
        cases hm
      · rw [if_neg hemp] at ho
        obtain ⟨sc, hsc, w, hw', ht, rfl⟩ := (mem_objectsAll ho s).1 hs'
        obtain ⟨u, hu, hul⟩ := valueFromScenario_if hw'
        have hscne : sc ≠ [] := by
          rintro rfl
          obtain ⟨x, hx⟩ := (C21_exactly_requested enum tb _ scs hs [] hsc (.str c)).2
            (List.mem_map.2 ⟨c, ((hso _).2 c).2 ((objectConds_if hst).2 .here), rfl⟩)
          simp [dlookup] at hx
        cases w with
        | list xs =>
          have hm' := hm
          unfold dupsIn at hm'
          simp only at hm'
          obtain ⟨j, x, -, -, rfl⟩ := mem_dupLoop.1 hm'
          rw [dupReport_scenario hscne] at hm ⊢
          refine ⟨rfl, fun hdec σ hσ => ?_⟩
          obtain ⟨q, hc⟩ := (valueIn_steady (σ := σ) hst (fun d hd => by
            obtain ⟨x, hx⟩ := decided_fn (hdec d hd)
            rw [hx, agrees_some hσ d x hx]) hu xs).1 ((hul xs).1 rfl)
          obtain ⟨i, hi, -⟩ := (mem_dups (at_wf (chosen_at hc) hw)).1 hm
          exact ⟨q, xs, i, hc, hi⟩
        | _ => cases hm

theorem dupIf_complete {H : Val → String} {fuel : Nat} {enum : String → List String → List String}
    {order : List String → List String} {t : List (Key × Val)} {tb : CondTable} {σ : String → Bool} {c : String} {a b : Val}
    {path : Path} {out : List ListReport} (hso : SetOrder order) (hw : (fnIf (.str c) a b).WF) (hst : SteadyLists (fnIf (.str c) a b))
    (hd : Deployment H fuel enum t tb (fun d => Branches d (fnIf (.str c) a b)) σ)
    (h : dupValue enum order tb (fnIf (.str c) a b) path = .ok out) {q : Path} {xs : List Val} {i : Nat}
    (hc : Chosen σ (fnIf (.str c) a b) q (.list xs)) (hi : Repeats xs i) :
    ∃ r ∈ out, r.path = path ∧ Agrees r.scenario σ := by
  unfold dupValue at h
  rw [fnIf] at h
  simp only at h
  rw [← fnIf] at h
  unfold objectWithoutConditions at h
  cases hs : getScenarios enum tb ((order (objectConds (fnIf (.str c) a b))).map Key.str) with
  | error e => rw [hs] at h; cases h
  | ok scs =>
    rw [hs] at h
    cases ho : objectsWithout scs (fnIf (.str c) a b) with
    | error e => simp only [ho] at h; cases h
    | ok sets =>
      simp only [ho] at h
      cases h
      rcases deployment_scenario hd hso (fun d => objectConds_if hst) hs with ⟨-, hno⟩ | ⟨sc, hsc, hfn, hag⟩
      · exact absurd .here (hno c)
      · unfold objectsWithout at ho
        rw [if_neg (by simp [Val.isDict, fnIf]), if_neg (by
          cases scs with
          | nil => cases hsc
          | cons => simp)] at ho
        obtain ⟨u, hu, -⟩ := valueIn_proper sc _ hst.proper
        have hul := (valueIn_steady hst hfn hu xs).2 ⟨q, hc⟩
        subst hul
        have hvs : valueFromScenario sc (fnIf (.str c) a b) = .ok (.list xs) := by
          unfold fnIf at hu ⊢
          rw [valueFromScenario, if_pos ⟨rfl, by simp [Val.truthy]⟩, hu]
          simp
        have hscne : sc ≠ [] := by
          rintro rfl
          have := hfn c .here
          simp [Scenario.fn, dlookup] at this
        refine ⟨⟨path, some sc⟩, List.mem_flatMap.2 ⟨(some sc, .list xs), (mem_objectsAll ho _).2 ⟨sc, hsc, _, hvs, ?_, rfl⟩, ?_⟩,
          rfl, agrees_of_fn hag⟩
        · obtain ⟨j, x, y, hj, hx, -⟩ := hi
          cases xs with
          | nil => simp at hx
          | cons => simp [Val.truthy]
        · exact (mem_dups (at_wf (chosen_at hc) hw)).2 ⟨i, hi, (dupReport_scenario hscne).symm⟩

/-- only lists and `Fn::If`s are reported -/
theorem dupValue_only {enum : String → List String → List String} {order : List String → List String} {tb : CondTable} {v : Val}
    {path : Path} {out : List ListReport} (h : dupValue enum order tb v path = .ok out) {r : ListReport} (hr : r ∈ out) :
    (∃ xs, v = .list xs) ∨ IsIf v := by
  unfold dupValue at h
  split at h
  · rename_i xs
    exact .inl ⟨xs, rfl⟩
  · rename_i kvs
    right
    by_contra hif
    unfold objectWithoutConditions at h
    cases hs : getScenarios enum tb ((order (objectConds (.dict kvs))).map Key.str) with
    | error e => rw [hs] at h; cases h
    | ok scs =>
      rw [hs] at h
      cases ho : objectsWithout scs (.dict kvs) with
      | error e => simp only [ho] at h; cases h
      | ok sets =>
        simp only [ho] at h
        cases h
        obtain ⟨s, hs', hm⟩ := List.mem_flatMap.1 hr
        unfold objectsWithout at ho
        rw [if_neg (by simp [Val.isDict])] at ho
        by_cases hemp : scs.isEmpty = true
        · rw [if_pos hemp] at ho
          split at ho
          · cases ho; cases hs'
          · cases ho
            cases List.mem_singleton.1 hs'
            cases hm
        · rw [if_neg hemp] at ho
          obtain ⟨sc, hsc, w, hw', ht, rfl⟩ := (mem_objectsAll ho s).1 hs'
          obtain ⟨l, rfl⟩ := valueFromScenario_dict hif hw'
          cases hm
  · cases h; cases hr

theorem noDuplicates_iff {d : ListRow} : noDuplicates d = true ↔ ForbidsRepeats d := by
  unfold noDuplicates ForbidsRepeats
  cases d.duplicates with
  | none => simp
  | some x => cases x <;> simp

theorem oddDuplicates_iff {d : ListRow} : oddDuplicates d = true ↔ AllowsRepeats d := by
  unfold oddDuplicates AllowsRepeats
  cases d.duplicates with
  | none => simp
  | some x => cases x <;> simp

theorem dupRule_iff {enum : String → List String → List String} {order : List String → List String} {tb : CondTable}
    {test : ListRow → Bool} {rows : List (String × ListRow)} {kvs : List (Key × Val)} {path : Path} {res : List ListReport}
    (hw : (Val.dict kvs).WF) (ho : ∀ q u, Leaf (.dict kvs) q u → ∃ l, u = .dict l)
    (h : dupRule enum order tb test rows (.dict kvs) path = .ok res) (r : ListReport) :
    r ∈ res ↔ ∃ q l prop d v out, Leaf (.dict kvs) q (.dict l) ∧ (Key.str prop, v) ∈ l ∧ v ≠ noValue ∧ dlookup prop rows = some d ∧
      test d = true ∧ dupValue enum order tb v (path ++ q ++ [.str prop]) = .ok out ∧ r ∈ out := by
  unfold dupRule at h
  rw [eachDeclared_iff hw ho h]
  have hsub : ∀ q l prop v, Leaf (.dict kvs) q (.dict l) → (Key.str prop, v) ∈ l → v ≠ noValue →
      (Val.dict (cleaned l)).subscript (.str prop) = .ok v := by
    intro q l prop v hl hv hne
    unfold Val.subscript
    simp only
    rw [dlookup_of_mem (cleaned_nodup (leaf_nodup hw hl)) (mem_cleaned.2 ⟨hv, hne⟩)]
  constructor
  · rintro ⟨q, l, prop, d, v, out, hl, hv, hne, hd, hout, hm⟩
    by_cases ht : test d = true
    · rw [if_pos ht, hsub q l prop v hl hv hne] at hout
      exact ⟨q, l, prop, d, v, out, hl, hv, hne, hd, ht, hout, hm⟩
    · rw [if_neg ht] at hout
      cases hout
      cases hm
  · rintro ⟨q, l, prop, d, v, out, hl, hv, hne, hd, ht, hout, hm⟩
    exact ⟨q, l, prop, d, v, out, hl, hv, hne, hd, by rw [if_pos ht, hsub q l prop v hl hv hne]; exact hout, hm⟩

theorem dupRule_runs {enum : String → List String → List String} {order : List String → List String} {tb : CondTable}
    {test : ListRow → Bool} {rows : List (String × ListRow)} {kvs : List (Key × Val)} {path : Path} {res : List ListReport}
    (hw : (Val.dict kvs).WF) (h : dupRule enum order tb test rows (.dict kvs) path = .ok res) {q : Path} {l : List (Key × Val)}
    {prop : String} {d : ListRow} {v : Val} (hl : Leaf (.dict kvs) q (.dict l)) (hv : (Key.str prop, v) ∈ l) (hne : v ≠ noValue)
    (hd : dlookup prop rows = some d) (ht : test d = true) : ∃ out, dupValue enum order tb v (path ++ q ++ [.str prop]) = .ok out := by
  have hin : (withoutNoValue (.dict l), path ++ q) ∈ itemsSafe [] kvs path :=
    (mem_itemsSafe [] kvs path _ _ hw).2 ⟨q, _, hl, rfl, rfl, by simp [okType]⟩
  unfold dupRule eachDeclared at h
  simp only [itemsSafeOf] at h
  obtain ⟨o1, ho1⟩ := collectM_each h _ hin
  unfold declaredIn at ho1
  simp only [withoutNoValue, iterOf] at ho1
  obtain ⟨o2, ho2⟩ := collectM_each ho1 (.str prop) (List.mem_map.2 ⟨(.str prop, v), List.mem_filter.2 ⟨hv, by simpa using hne⟩, rfl⟩)
  simp only [hd, if_pos ht] at ho2
  have hsub : (Val.dict (l.filter (fun kv => decide (kv.2 ≠ noValue)))).subscript (.str prop) = .ok v := by
    unfold Val.subscript
    simp only
    rw [dlookup_filter_ne (leaf_nodup hw hl) hv hne]
  rw [hsub] at ho2
  exact ⟨o2, ho2⟩

/-- the reports of the rule for the rows with `T` -/
structure DupReport (T : ListRow → Prop) (rows : List (String × ListRow)) (kvs : List (Key × Val)) (path : Path) (r : ListReport) : Prop where
  fault : ∃ q l prop d v, Leaf (.dict kvs) q (.dict l) ∧ (Key.str prop, v) ∈ l ∧ dlookup prop rows = some d ∧ T d ∧
    ((∃ xs i, v = .list xs ∧ Repeats xs i ∧ r = ⟨path ++ q ++ [.str prop] ++ [.int i], none⟩) ∨
      (IsIf v ∧ (SteadyLists v → r.path = path ++ q ++ [.str prop] ∧ ((∀ c, Branches c v → Decided r.scenario c) →
        ∀ σ, Agrees r.scenario σ → ∃ q' xs i, Chosen σ v q' (.list xs) ∧ Repeats xs i))))

theorem dupRule_sound {enum : String → List String → List String} {order : List String → List String} {tb : CondTable}
    {test : ListRow → Bool} {T : ListRow → Prop} (hT : ∀ d, test d = true ↔ T d) {rows : List (String × ListRow)} {kvs : List (Key × Val)}
    {path : Path} {res : List ListReport} (hso : SetOrder order) (hw : (Val.dict kvs).WF)
    (ho : ∀ q u, Leaf (.dict kvs) q u → ∃ l, u = .dict l)
    (h : dupRule enum order tb test rows (.dict kvs) path = .ok res) {r : ListReport} (hr : r ∈ res) : DupReport T rows kvs path r := by
  obtain ⟨q, l, prop, d, v, out, hl, hv, hne, hd, ht, hout, hm⟩ := (dupRule_iff hw ho h r).1 hr
  have hwv : v.WF := wfDict_at (at_wf (leaf_at hl) hw).2 hv
  refine ⟨q, l, prop, d, v, hl, hv, hd, (hT d).1 ht, ?_⟩
  rcases dupValue_only hout hm with ⟨xs, rfl⟩ | hif
  · left
    unfold dupValue at hout
    simp only at hout
    cases hout
    obtain ⟨i, hi, rfl⟩ := (mem_dups hwv).1 hm
    exact ⟨xs, i, rfl, hi, rfl⟩
  · right
    refine ⟨hif, fun hst => ?_⟩
    obtain ⟨w, rfl⟩ := hif
    have hp := hst.proper
    rw [Proper] at hp
    obtain ⟨c, a, b, rfl, -⟩ := properIf_inv (hp rfl)
    exact dupIf_sound hso hwv hst hout hm

/-- **C83** E3037, what is reported: an element of a list that repeats an earlier one; or an `Fn::If` which, under all truth values that
agree with the scenario, is a list with such an element. -/
theorem C83_forbidden_sound {enum : String → List String → List String} {order : List String → List String} {tb : CondTable}
    {rows : List (String × ListRow)} {kvs : List (Key × Val)} {path : Path} {res : List ListReport} (hso : SetOrder order)
    (hw : (Val.dict kvs).WF) (ho : ∀ q u, Leaf (.dict kvs) q u → ∃ l, u = .dict l)
    (h : duplicatesRule enum order tb rows (.dict kvs) path = .ok res) {r : ListReport} (hr : r ∈ res) :
    DupReport ForbidsRepeats rows kvs path r := dupRule_sound (fun _ => noDuplicates_iff) hso hw ho h hr

/-- **C83** I3037, likewise -/
theorem C83_allowed_sound {enum : String → List String → List String} {order : List String → List String} {tb : CondTable}
    {rows : List (String × ListRow)} {kvs : List (Key × Val)} {path : Path} {res : List ListReport} (hso : SetOrder order)
    (hw : (Val.dict kvs).WF) (ho : ∀ q u, Leaf (.dict kvs) q u → ∃ l, u = .dict l)
    (h : oddDuplicatesRule enum order tb rows (.dict kvs) path = .ok res) {r : ListReport} (hr : r ∈ res) :
    DupReport AllowsRepeats rows kvs path r := dupRule_sound (fun _ => oddDuplicates_iff) hso hw ho h hr

theorem dupRule_list {enum : String → List String → List String} {order : List String → List String} {tb : CondTable}
    {test : ListRow → Bool} {rows : List (String × ListRow)} {kvs : List (Key × Val)}
    {path : Path} {res : List ListReport} (hw : (Val.dict kvs).WF) (ho : ∀ q u, Leaf (.dict kvs) q u → ∃ l, u = .dict l)
    (h : dupRule enum order tb test rows (.dict kvs) path = .ok res) {q : Path} {l : List (Key × Val)} {prop : String} {d : ListRow}
    {xs : List Val} {i : Nat} (hl : Leaf (.dict kvs) q (.dict l)) (hv : (Key.str prop, .list xs) ∈ l) (hd : dlookup prop rows = some d)
    (ht : test d = true) (hi : Repeats xs i) : ⟨path ++ q ++ [.str prop] ++ [.int i], none⟩ ∈ res := by
  have hwv : (Val.list xs).WF := wfDict_at (at_wf (leaf_at hl) hw).2 hv
  exact (dupRule_iff hw ho h _).2 ⟨q, l, prop, d, _, _, hl, hv, by simp [noValue], hd, ht, rfl, (mem_dups hwv).2 ⟨i, hi, rfl⟩⟩

/-- **C83** E3037: each element of a list that repeats an earlier one is reported. -/
theorem C83_forbidden_lists {enum : String → List String → List String} {order : List String → List String} {tb : CondTable}
    {rows : List (String × ListRow)} {kvs : List (Key × Val)} {path : Path} {res : List ListReport} (hw : (Val.dict kvs).WF)
    (ho : ∀ q u, Leaf (.dict kvs) q u → ∃ l, u = .dict l) (h : duplicatesRule enum order tb rows (.dict kvs) path = .ok res)
    {q : Path} {l : List (Key × Val)} {prop : String} {d : ListRow} {xs : List Val} {i : Nat} (hl : Leaf (.dict kvs) q (.dict l))
    (hv : (Key.str prop, .list xs) ∈ l) (hd : dlookup prop rows = some d) (ht : ForbidsRepeats d) (hi : Repeats xs i) :
    ⟨path ++ q ++ [.str prop] ++ [.int i], none⟩ ∈ res := dupRule_list hw ho h hl hv hd (noDuplicates_iff.2 ht) hi

/-- **C83** I3037, likewise -/
theorem C83_allowed_lists {enum : String → List String → List String} {order : List String → List String} {tb : CondTable}
    {rows : List (String × ListRow)} {kvs : List (Key × Val)} {path : Path} {res : List ListReport} (hw : (Val.dict kvs).WF)
    (ho : ∀ q u, Leaf (.dict kvs) q u → ∃ l, u = .dict l) (h : oddDuplicatesRule enum order tb rows (.dict kvs) path = .ok res)
    {q : Path} {l : List (Key × Val)} {prop : String} {d : ListRow} {xs : List Val} {i : Nat} (hl : Leaf (.dict kvs) q (.dict l))
    (hv : (Key.str prop, .list xs) ∈ l) (hd : dlookup prop rows = some d) (ht : AllowsRepeats d) (hi : Repeats xs i) :
    ⟨path ++ q ++ [.str prop] ++ [.int i], none⟩ ∈ res := dupRule_list hw ho h hl hv hd (oddDuplicates_iff.2 ht) hi

theorem element_steady {σ : String → Bool} {xs : List Val} (hs : ∀ x ∈ xs, Steady x) {i : Nat} {y : Val} :
    Element σ xs i y ↔ xs[i]? = some y := by
  constructor
  · rintro ⟨x, q, hx, hc, -⟩
    rw [((chosen_notIf (hs x (List.mem_of_getElem? hx)).1).1 hc).2]
    exact hx
  · intro hx
    have := hs y (List.mem_of_getElem? hx)
    exact ⟨y, [], hx, .here this.1, this.2.1⟩

/-- **C83** whatever the deployment, an `Fn::If` that is a list with equal elements is reported. -/
theorem C83_branches_partial {H : Val → String} {fuel : Nat} {enum : String → List String → List String}
    {order : List String → List String} {t : List (Key × Val)} {tb : CondTable} {σ : String → Bool} {rows : List (String × ListRow)}
    {kvs : List (Key × Val)} {path : Path} {res : List ListReport} (hso : SetOrder order) (hw : (Val.dict kvs).WF)
    (ho : ∀ q u, Leaf (.dict kvs) q u → ∃ l, u = .dict l) (h : duplicatesRule enum order tb rows (.dict kvs) path = .ok res)
    {q : Path} {l : List (Key × Val)} {prop : String} {d : ListRow} {v : Val} (hl : Leaf (.dict kvs) q (.dict l))
    (hv : (Key.str prop, v) ∈ l) (hd : dlookup prop rows = some d) (ht : ForbidsRepeats d) (hif : IsIf v) (hst : SteadyLists v)
    (hdep : Deployment H fuel enum t tb (fun c => Branches c v) σ) (hr : RepeatsUnder σ v) :
    ∃ r ∈ res, r.path = path ++ q ++ [.str prop] ∧ Agrees r.scenario σ := by
  have hwv : v.WF := wfDict_at (at_wf (leaf_at hl) hw).2 hv
  obtain ⟨w, rfl⟩ := hif
  have hp := hst.proper
  rw [Proper] at hp
  obtain ⟨c, a, b, rfl, -⟩ := properIf_inv (hp rfl)
  have hne : Val.dict [(.str "Fn::If", .list [.str c, a, b])] ≠ noValue := by simp [noValue]
  obtain ⟨out, hout⟩ := dupRule_runs hw h hl hv hne hd (noDuplicates_iff.2 ht)
  obtain ⟨q', xs, j, i, x, y, hc, hj, hx, hy, hxy⟩ := hr
  have hleaf : ∀ {v q}, Chosen σ v q (.list xs) → Leaf v q (.list xs) := by
    intro v q hc
    generalize hu : Val.list xs = u at hc
    induction hc with
    | here hn => subst hu; exact (leaf_of_notIf hn).2 ⟨rfl, rfl, by simp [noValue]⟩
    | left _ _ ih => exact .left (ih hu)
    | right _ _ ih => exact .right (ih hu)
  have hs := hst.items q' xs (hleaf hc)
  obtain ⟨r, hro, h1, h2⟩ := dupIf_complete hso hwv hst hdep hout hc
    ⟨j, x, y, hj, (element_steady hs).1 hx, (element_steady hs).1 hy, hxy⟩
  exact ⟨r, (dupRule_iff hw ho h r).2 ⟨q, l, prop, d, _, out, hl, hv, hne, hd, noDuplicates_iff.2 ht, hout, hro⟩, h1, h2⟩

/-- **C83** in full for E3037: a property is reported exactly when there is a deployment in which its list has equal elements. -/
def C83_statement : Prop := ∀ (H : Val → String) (fuel : Nat) (enum : String → List String → List String)
  (order : List String → List String) (t : List (Key × Val)) (tb : CondTable) (σ : String → Bool) (rows : List (String × ListRow))
  (kvs : List (Key × Val)) (path : Path) (res : List ListReport) (q : Path) (l : List (Key × Val)) (prop : String) (d : ListRow)
  (v : Val), SetOrder order → (Val.dict kvs).WF → PlainBranches (.dict kvs) →
  duplicatesRule enum order tb rows (.dict kvs) path = .ok res → Leaf (.dict kvs) q (.dict l) → (Key.str prop, v) ∈ l →
  dlookup prop rows = some d → ForbidsRepeats d → Deployment H fuel enum t tb (fun c => Asks c v) σ →
  ((∃ r ∈ res, path ++ q ++ [.str prop] <+: r.path ∧ Agrees r.scenario σ) ↔ RepeatsUnder σ v)

def exRepeat (v : Val) : List (Key × Val) := [(.str "A", v), (.str "D", .int 2)]

def exNoRepeat : List (String × ListRow) := [("A", { type := some "List", duplicates := some false })]

/-- **C83** fails: elements removed by `AWS::NoValue` are equal. -/
theorem C83_novalue_reported : duplicatesRule (fun _ s => s) List.eraseDups exOneTable exNoRepeat (.dict (exRepeat (.list [noValue, noValue]))) [] =
    .ok [⟨[.str "A", .int 1], none⟩] := by decide +kernel

/-- **C83** fails: elements given by an `Fn::If` are not chosen. -/
theorem C83_condition_missed : duplicatesRule (fun _ s => s) List.eraseDups exOneTable exNoRepeat
    (.dict (exRepeat (.list [.str "x", fnIf (.str "C1") (.str "x") (.str "y")]))) [] = .ok [] := by decide +kernel

theorem exRepeat_plain {v : Val} (hp : Proper v) : PlainObject (exRepeat v) := by
  constructor
  · simp [exRepeat]
  · simp [exRepeat]
  · intro kv h
    simp only [exRepeat, List.mem_cons, List.not_mem_nil, or_false] at h
    rcases h with rfl | rfl
    · exact hp
    · simp [Proper]

/-- **C83** fails -/
theorem C83_violated : ¬ C83_statement := by
  intro h
  have hd := exOne_deployment (s := "a") (.inl rfl) (P := fun c => Asks c (.list [.str "x", fnIf (.str "C1") (.str "x") (.str "y")]))
    (b := fun _ => true) (fun c hc => by
      have := (mem_propConds c _).2 hc
      simpa [propConds, propListConds, propIfConds, fnIf] using this) (by decide)
  have := (h exHash 5 (fun _ s => s) List.eraseDups exOne exOneTable (fun _ => true) exNoRepeat
    (exRepeat (.list [.str "x", fnIf (.str "C1") (.str "x") (.str "y")])) [] _ [] _ "A" _ _ setOrder_eraseDups
    (by simp [exRepeat, fnIf, Val.WF, Val.WFDict, Val.WFList])
    (fun q u h => ⟨_, leaf_of_two h, exRepeat_plain (by simp [Proper, ProperItems, ProperIf, fnIf])⟩) C83_condition_missed
    ((leaf_of_notIf (by simp [IsIf, exRepeat])).2 ⟨rfl, rfl, by simp [exRepeat, noValue]⟩) (List.mem_cons_self) rfl ⟨rfl, rfl⟩ hd).2
    ⟨[], _, 0, 1, .str "x", .str "x", .here (by simp [IsIf]), by decide, ⟨_, [], rfl, .here (by simp [IsIf]), by simp [noValue]⟩,
      ⟨_, _, rfl, .left rfl (.here (by simp [IsIf])), by simp [noValue]⟩, sameText_refl _⟩
  obtain ⟨r, hr, -⟩ := this
  cases hr

/-- the order of the keys does not matter -/
theorem C83_key_order : duplicatesRule (fun _ s => s) List.eraseDups exOneTable exNoRepeat (.dict (exRepeat (.list
    [.dict [(.str "a", .int 1), (.str "b", .int 2)], .str "x", .dict [(.str "b", .int 2), (.str "a", .int 1)]]))) [] =
    .ok [⟨[.str "A", .int 2], none⟩] := by decide +kernel

/-- an `Fn::If` with a list that has equal elements -/
def exRepeatIf : Val := fnIf (.str "C1") (.list [.str "x", .str "x"]) (.list [.str "x"])

theorem exRepeatIf_steady : SteadyLists exRepeatIf := by
  have hx : ∀ s : String, Steady (.str s) := fun s => ⟨by simp [IsIf], by simp [noValue], by simp, by simp⟩
  have hleaf : ∀ q u, Leaf exRepeatIf q u → u = .list [.str "x", .str "x"] ∨ u = .list [.str "x"] := by
    intro q u h
    generalize hv : exRepeatIf = v at h
    cases h with
    | here hn => exact absurd ⟨_, hv.symm⟩ hn
    | left h =>
      simp only [exRepeatIf, fnIf, Val.dict.injEq, List.cons.injEq, Prod.mk.injEq, true_and, and_true, Val.list.injEq] at hv
      obtain ⟨-, rfl, rfl⟩ := hv
      exact .inl ((leaf_of_notIf (by simp [IsIf])).1 h).2.1
    | right h =>
      simp only [exRepeatIf, fnIf, Val.dict.injEq, List.cons.injEq, Prod.mk.injEq, true_and, and_true, Val.list.injEq] at hv
      obtain ⟨-, rfl, rfl⟩ := hv
      exact .inr ((leaf_of_notIf (by simp [IsIf])).1 h).2.1
  refine ⟨by simp [exRepeatIf, fnIf, Proper, ProperIf, ProperItems], fun q xs h x hm => ?_, fun q kvs h => ?_⟩
  · rcases hleaf q _ h with e | e
    · cases e
      simp only [List.mem_cons, List.not_mem_nil, or_false] at hm
      rcases hm with rfl | rfl <;> exact hx _
    · cases e
      simp only [List.mem_cons, List.not_mem_nil, or_false] at hm
      subst hm
      exact hx _
  · rcases hleaf q _ h with e | e <;> cases e

/-- the hypotheses of `C83_branches_partial` are met -/
example : ∃ r ∈ ([⟨[.str "A"], some [(.str "C1", some true)]⟩] : List ListReport), r.path = [] ++ [] ++ [.str "A"] ∧
    Agrees r.scenario (fun _ => true) := by
  refine C83_branches_partial (l := exRepeat exRepeatIf) (kvs := exRepeat exRepeatIf) (rows := exNoRepeat) (v := exRepeatIf) setOrder_eraseDups
    (by simp [exRepeat, exRepeatIf, fnIf, Val.WF, Val.WFDict, Val.WFList]) (fun q u h => ⟨_, leaf_of_two h⟩)
    (show duplicatesRule (fun _ s => s) List.eraseDups exOneTable _ _ _ = _ by decide +kernel)
    ((leaf_of_notIf (by simp [IsIf, exRepeat])).2 ⟨rfl, rfl, by simp [exRepeat, noValue]⟩) List.mem_cons_self rfl ⟨rfl, rfl⟩ ⟨_, rfl⟩
    exRepeatIf_steady (exOne_deployment (s := "a") (.inl rfl) ?_ (by decide))
    ⟨_, _, 0, 1, .str "x", .str "x", .left rfl (.here (by simp [IsIf])), by decide, ⟨_, [], rfl, .here (by simp [IsIf]), by simp [noValue]⟩,
      ⟨_, _, rfl, .here (by simp [IsIf]), by simp [noValue]⟩, sameText_refl _⟩
  intro c hc
  have := (mem_propConds c _).2 ((asks_branches exRepeatIf_steady).2 hc)
  simpa [propConds, propListConds, propIfConds, fnIf, exRepeatIf] using this

end CfnLint
