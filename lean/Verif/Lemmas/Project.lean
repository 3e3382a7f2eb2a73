import Verif.Model.Scenario
import Verif.Spec.Scenario
import Verif.Lemmas.Dict
/-
Lemmas about values under a scenario.
-/
namespace CfnLint
open Spec

mutual
theorem noIf_project (σ : String → Option Bool) : ∀ v : Val, NoIf v → project σ v = some v
  | .dict [], _ => rfl
  | .dict [(k, v)], h => by
    rw [NoIf] at h
    rw [project, if_neg h.1, if_neg h.2.1, noIf_project σ v h.2.2]
    rfl
  | .dict (a :: b :: l), h => by
    rw [NoIf.eq_2 _ (by simp)] at h
    rw [project.eq_2 _ _ (by simp), noIf_projectEntries σ (a :: b :: l) h]
  | .list xs, h => by
    rw [NoIf] at h
    rw [project, noIf_projectItems σ xs h]
  | .none, _ => rfl
  | .bool _, _ => rfl
  | .int _, _ => rfl
  | .flt _, _ => rfl
  | .str _, _ => rfl
theorem noIf_projectEntries (σ : String → Option Bool) : ∀ l : List (Key × Val), NoIfEntries l →
    projectEntries σ l = l
  | [], _ => rfl
  | (k, v) :: rest, h => by
    rw [NoIfEntries] at h
    rw [projectEntries, noIf_project σ v h.1, noIf_projectEntries σ rest h.2]
    rfl
theorem noIf_projectItems (σ : String → Option Bool) : ∀ l : List Val, NoIfItems l →
    projectItems σ l = l
  | [], _ => rfl
  | x :: rest, h => by
    rw [NoIfItems] at h
    rw [projectItems, noIf_project σ x h.1, noIf_projectItems σ rest h.2]
    rfl
end

/-- the scenario as a function from condition names -/
def Scenario.fn (sc : Scenario) (c : String) : Option Bool := (dlookup (.str c) sc).getD none

theorem closedIf_false {σ : String → Option Bool} {v : Val} (h : ∀ c a b, v ≠ .list [.str c, a, b])
    (hc : ClosedIf σ v) : False := by
  unfold ClosedIf at hc
  split at hc
  · exact h _ _ _ rfl
  · exact hc

mutual
theorem valueIn_flat (sc : Scenario) : ∀ v : Val, Flat v → Closed sc.fn v →
    valueIn sc v = .ok ((project sc.fn v).getD .none) ∧ project sc.fn v ≠ some .none
  | .dict [], _, _ => by simp [valueIn, project, projectEntries]
  | .dict [(k, v)], h, hc => by
    rw [Flat] at h
    rw [Closed] at hc
    rw [valueIn, project]
    split
    · rename_i hk
      rw [if_pos hk] at h hc
      exact valueIf_flat sc _ v h hc
    · rename_i hk
      rw [if_neg hk] at h
      rcases h with h | h
      · cases h
        simp
      · split
        · rename_i h2
          rw [if_pos (by rw [h2.1, h2.2])]
          simp
        · rename_i h2
          rw [if_neg (by intro h3; injection h3 with h3 h4; exact h2 ⟨h3, h4⟩), noIf_project _ v h]
          simp
  | .dict (a :: b :: l), h, _ => by
    rw [Flat.eq_2 _ (by simp)] at h
    rw [valueIn.eq_3 _ _ (by simp) (by simp), project.eq_2 _ _ (by simp), noIf_projectEntries _ _ h]
    simp
  | .list xs, h, hc => by
    rw [Flat] at h
    rw [Closed] at hc
    rw [valueIn, project, valuesIn_flat sc xs h hc]
    simp
  | .none, _, hc => by rw [Closed] at hc; exact hc.elim
  | .bool _, _, _ => by simp [valueIn, project]
  | .int _, _, _ => by simp [valueIn, project]
  | .flt _, _, _ => by simp [valueIn, project]
  | .str _, _, _ => by simp [valueIn, project]
theorem valueIf_flat (sc : Scenario) (whole : Val) : ∀ v : Val, FlatIf v → ClosedIf sc.fn v →
    valueIf sc whole v = .ok ((projectIf sc.fn v).getD .none) ∧ projectIf sc.fn v ≠ some .none
  | .list [.str c, a, b], h, hc => by
    rw [FlatIf] at h
    rw [ClosedIf] at hc
    obtain ⟨⟨x, hx⟩, ha, hb⟩ := hc
    have : lookupBranch sc (.str c) = .ok (some x) := by
      simp only [lookupBranch, hashName, Scenario.value, Val.toKey?]
      exact congrArg _ hx
    rw [valueIf, projectIf, this, hx]
    cases x
    · exact valueIn_flat sc b h.2 hb
    · exact valueIn_flat sc a h.1 ha
  | .list [], _, hc => (closedIf_false (by simp) hc).elim
  | .list [_], _, hc => (closedIf_false (by simp) hc).elim
  | .list [_, _], _, hc => (closedIf_false (by simp) hc).elim
  | .list [.none, _, _], _, hc => (closedIf_false (by simp) hc).elim
  | .list [.bool _, _, _], _, hc => (closedIf_false (by simp) hc).elim
  | .list [.int _, _, _], _, hc => (closedIf_false (by simp) hc).elim
  | .list [.flt _, _, _], _, hc => (closedIf_false (by simp) hc).elim
  | .list [.list _, _, _], _, hc => (closedIf_false (by simp) hc).elim
  | .list [.dict _, _, _], _, hc => (closedIf_false (by simp) hc).elim
  | .list (_ :: _ :: _ :: _ :: _), _, hc => (closedIf_false (by simp) hc).elim
  | .dict _, _, hc => (closedIf_false (by simp) hc).elim
  | .none, _, hc => (closedIf_false (by simp) hc).elim
  | .bool _, _, hc => (closedIf_false (by simp) hc).elim
  | .int _, _, hc => (closedIf_false (by simp) hc).elim
  | .flt _, _, hc => (closedIf_false (by simp) hc).elim
  | .str _, _, hc => (closedIf_false (by simp) hc).elim
theorem valuesIn_flat (sc : Scenario) : ∀ l : List Val, FlatItems l → ClosedItems sc.fn l →
    valuesIn sc l = .ok (projectItems sc.fn l)
  | [], _, _ => rfl
  | x :: xs, h, hc => by
    rw [FlatItems] at h
    rw [ClosedItems] at hc
    obtain ⟨h1, h2⟩ := valueIn_flat sc x h.1 hc.1
    rw [valuesIn, projectItems, h1, valuesIn_flat sc xs h.2 hc.2]
    cases hp : project sc.fn x with
    | none => simp
    | some w =>
      have : w ≠ .none := fun hw => h2 (by rw [hp, hw])
      simp [this]
end

mutual
/-- `get_object_without_nested_conditions` computes the projection, except that removed entries of objects
are left behind as nulls. -/
theorem deepIn_project (sc : Scenario) : ∀ v : Val, Closed sc.fn v →
    ∃ w, deepIn sc v = .ok w ∧ dropNull w = (project sc.fn v).getD .none ∧
      (w = .none ↔ project sc.fn v = none)
  | .dict [], _ => ⟨.dict [], by simp [deepIn, deepEntries], by simp [project, dropNull, dropNullEntries,
      projectEntries], by simp [project]⟩
  | .dict [(k, v)], hc => by
    rw [Closed] at hc
    rw [deepIn, project]
    split
    · rename_i hk
      rw [if_pos hk] at hc
      exact deepIf_project sc k v hc
    · rename_i hk
      rw [if_neg hk] at hc
      split
      · rename_i h2
        rw [if_pos (by rw [h2.1, h2.2])]
        exact ⟨.none, rfl, rfl, by simp⟩
      · rename_i h2
        rw [if_neg (by intro h3; injection h3 with h3 h4; exact h2 ⟨h3, h4⟩)]
        obtain ⟨w, h3, h4, h5⟩ := deepIn_project sc v hc
        rw [h3]
        refine ⟨_, rfl, ?_, by simp⟩
        cases hp : project sc.fn v with
        | none =>
          rw [h5.2 hp]
          simp [dropNull, dropNullEntries]
        | some p =>
          rw [hp] at h4
          have hw : w ≠ .none := fun hw => by rw [h5.1 hw] at hp; cases hp
          simpa [dropNull, dropNullEntries, hw] using h4
  | .dict (a :: b :: l), hc => by
    rw [Closed.eq_2 _ _ (by simp)] at hc
    obtain ⟨w, h1, h2⟩ := deepEntries_project sc (a :: b :: l) hc
    rw [deepIn.eq_2 _ _ (by simp), project.eq_2 _ _ (by simp), h1]
    exact ⟨_, rfl, by rw [dropNull, h2]; rfl, by simp⟩
  | .list xs, hc => by
    rw [Closed] at hc
    obtain ⟨w, h1, h2⟩ := deepItems_project sc xs hc
    rw [deepIn, project, h1]
    exact ⟨_, rfl, by rw [dropNull, h2]; rfl, by simp⟩
  | .none, hc => by rw [Closed] at hc; exact hc.elim
  | .bool _, _ => ⟨_, by simp [deepIn]; rfl, by simp [dropNull, project], by simp [project]⟩
  | .int _, _ => ⟨_, by simp [deepIn]; rfl, by simp [dropNull, project], by simp [project]⟩
  | .flt _, _ => ⟨_, by simp [deepIn]; rfl, by simp [dropNull, project], by simp [project]⟩
  | .str _, _ => ⟨_, by simp [deepIn]; rfl, by simp [dropNull, project], by simp [project]⟩
theorem deepIf_project (sc : Scenario) (k : Key) : ∀ v : Val, ClosedIf sc.fn v →
    ∃ w, deepIf sc k v = .ok w ∧ dropNull w = (projectIf sc.fn v).getD .none ∧
      (w = .none ↔ projectIf sc.fn v = none)
  | .list [.str c, a, b], hc => by
    rw [ClosedIf] at hc
    obtain ⟨⟨x, hx⟩, ha, hb⟩ := hc
    have : lookupBranch sc (.str c) = .ok (some x) := by
      simp only [lookupBranch, hashName, Scenario.value, Val.toKey?]
      exact congrArg _ hx
    rw [deepIf, projectIf, this, hx]
    cases x
    · exact deepIn_project sc b hb
    · exact deepIn_project sc a ha
  | .list [], hc => (closedIf_false (by simp) hc).elim
  | .list [_], hc => (closedIf_false (by simp) hc).elim
  | .list [_, _], hc => (closedIf_false (by simp) hc).elim
  | .list [.none, _, _], hc => (closedIf_false (by simp) hc).elim
  | .list [.bool _, _, _], hc => (closedIf_false (by simp) hc).elim
  | .list [.int _, _, _], hc => (closedIf_false (by simp) hc).elim
  | .list [.flt _, _, _], hc => (closedIf_false (by simp) hc).elim
  | .list [.list _, _, _], hc => (closedIf_false (by simp) hc).elim
  | .list [.dict _, _, _], hc => (closedIf_false (by simp) hc).elim
  | .list (_ :: _ :: _ :: _ :: _), hc => (closedIf_false (by simp) hc).elim
  | .dict _, hc => (closedIf_false (by simp) hc).elim
  | .none, hc => (closedIf_false (by simp) hc).elim
  | .bool _, hc => (closedIf_false (by simp) hc).elim
  | .int _, hc => (closedIf_false (by simp) hc).elim
  | .flt _, hc => (closedIf_false (by simp) hc).elim
  | .str _, hc => (closedIf_false (by simp) hc).elim
theorem deepEntries_project (sc : Scenario) : ∀ l : List (Key × Val), ClosedEntries sc.fn l →
    ∃ w, deepEntries sc l = .ok w ∧ dropNullEntries w = projectEntries sc.fn l
  | [], _ => ⟨[], by rw [deepEntries], by rw [dropNullEntries, projectEntries]⟩
  | (k, v) :: rest, hc => by
    rw [ClosedEntries] at hc
    obtain ⟨w, h1, h2, h3⟩ := deepIn_project sc v hc.1
    obtain ⟨r, h4, h5⟩ := deepEntries_project sc rest hc.2
    rw [deepEntries, h1, projectEntries, h4]
    refine ⟨_, rfl, ?_⟩
    rw [dropNullEntries, h5]
    cases hp : project sc.fn v with
    | none => simp [h3.2 hp]
    | some p =>
      rw [hp] at h2
      have hw : w ≠ .none := fun hw => by rw [h3.1 hw] at hp; cases hp
      simpa [hw] using h2
theorem deepItems_project (sc : Scenario) : ∀ l : List Val, ClosedItems sc.fn l →
    ∃ w, deepItems sc l = .ok w ∧ dropNullItems w = projectItems sc.fn l
  | [], _ => ⟨[], by rw [deepItems], by rw [dropNullItems, projectItems]⟩
  | x :: rest, hc => by
    rw [ClosedItems] at hc
    obtain ⟨w, h1, h2, h3⟩ := deepIn_project sc x hc.1
    obtain ⟨r, h4, h5⟩ := deepItems_project sc rest hc.2
    rw [deepItems, h1, projectItems, h4]
    refine ⟨_, rfl, ?_⟩
    cases hp : project sc.fn x with
    | none => simp [h3.2 hp, h5]
    | some p =>
      rw [hp] at h2
      have hw : w ≠ .none := fun hw => by rw [h3.1 hw] at hp; cases hp
      simpa [hw, dropNullItems, h5] using h2
end

theorem projectEntries_keys (σ : String → Option Bool) : ∀ (l : List (Key × Val)) (k : Key),
    k ∈ (projectEntries σ l).map Prod.fst → k ∈ l.map Prod.fst
  | [], k, h => by rw [projectEntries] at h; exact h
  | (a, v) :: rest, k, h => by
    rw [projectEntries, List.map_append, List.mem_append] at h
    rcases h with h | h
    · cases hp : project σ v with
      | none => rw [hp] at h; simp at h
      | some w => rw [hp] at h; simp at h; simp [h]
    · exact List.mem_cons_of_mem _ (projectEntries_keys σ rest k h)

theorem noIf_dict {l : List (Key × Val)} (h : NoIfEntries l) (h1 : (.str "Fn::If" : Key) ∉ l.map Prod.fst)
    (h2 : (.str "Ref" : Key) ∉ l.map Prod.fst) : NoIf (.dict l) := by
  match l, h, h1, h2 with
  | [], h, _, _ => rw [NoIf.eq_2 _ (by simp)]; exact h
  | [(k, v)], h, h1, h2 =>
    rw [NoIfEntries] at h
    rw [NoIf]
    refine ⟨?_, ?_, h.1⟩
    · rintro rfl; simp at h1
    · intro he; injection he with he; subst he; simp at h2
  | _ :: _ :: _, h, _, _ => rw [NoIf.eq_2 _ (by simp)]; exact h

mutual
theorem project_noIf (σ : String → Option Bool) : ∀ v : Val, Tidy v → Closed σ v → ∀ w,
    project σ v = some w → NoIf w
  | .dict [], _, _, w, hw => by
    rw [project.eq_2 _ _ (by simp), projectEntries] at hw
    injection hw with hw; subst hw
    rw [NoIf.eq_2 _ (by simp), NoIfEntries]; trivial
  | .dict [(k, v)], ht, hc, w, hw => by
    rw [Tidy] at ht
    rw [Closed] at hc
    rw [project] at hw
    rw [TidyEntries] at ht
    split at hw
    · rename_i hk
      rw [if_pos hk] at hc
      exact projectIf_noIf σ v ht.2.2.1 hc w hw
    · rename_i hk
      rw [if_neg hk] at hc
      split at hw
      · cases hw
      · rename_i h2
        injection hw with hw; subst hw
        cases hp : project σ v with
        | none => simp only [Option.elim]; rw [NoIf.eq_2 _ (by simp), NoIfEntries]; trivial
        | some p =>
          simp only [Option.elim]
          rw [NoIf]
          refine ⟨hk, ?_, project_noIf σ v ht.2.2.1 hc p hp⟩
          intro he
          injection he with h3 h4
          subst h3
          obtain ⟨s, hs⟩ := ht.2.1 (by simp)
          injection hs with hs
          injection hs with _ hs
          subst hs
          rw [project.eq_4 _ _ (by simp) (by simp) (by simp)] at hp
          injection hp with hp
          rw [hp, h4] at h2
          exact h2 rfl
  | .dict (a :: b :: l), ht, hc, w, hw => by
    rw [Tidy] at ht
    rw [Closed.eq_2 _ _ (by simp)] at hc
    rw [project.eq_2 _ _ (by simp)] at hw
    injection hw with hw; subst hw
    refine noIf_dict (projectEntries_noIf σ _ ht.2.2 hc) ?_ ?_
    · intro hm
      have := ht.1 (projectEntries_keys σ _ _ hm)
      simp at this
    · intro hm
      obtain ⟨s, hs⟩ := ht.2.1 (projectEntries_keys σ _ _ hm)
      simp at hs
  | .list xs, ht, hc, w, hw => by
    rw [Tidy] at ht
    rw [Closed] at hc
    rw [project] at hw
    injection hw with hw; subst hw
    rw [NoIf]
    exact projectItems_noIf σ xs ht hc
  | .none, _, _, w, hw => by rw [project.eq_4 _ _ (by simp) (by simp) (by simp)] at hw; injection hw with hw; subst hw; rw [NoIf.eq_4 _ (by simp) (by simp) (by simp)]; trivial
  | .bool _, _, _, w, hw => by rw [project.eq_4 _ _ (by simp) (by simp) (by simp)] at hw; injection hw with hw; subst hw; rw [NoIf.eq_4 _ (by simp) (by simp) (by simp)]; trivial
  | .int _, _, _, w, hw => by rw [project.eq_4 _ _ (by simp) (by simp) (by simp)] at hw; injection hw with hw; subst hw; rw [NoIf.eq_4 _ (by simp) (by simp) (by simp)]; trivial
  | .flt _, _, _, w, hw => by rw [project.eq_4 _ _ (by simp) (by simp) (by simp)] at hw; injection hw with hw; subst hw; rw [NoIf.eq_4 _ (by simp) (by simp) (by simp)]; trivial
  | .str _, _, _, w, hw => by rw [project.eq_4 _ _ (by simp) (by simp) (by simp)] at hw; injection hw with hw; subst hw; rw [NoIf.eq_4 _ (by simp) (by simp) (by simp)]; trivial
theorem projectIf_noIf (σ : String → Option Bool) : ∀ v : Val, Tidy v → ClosedIf σ v → ∀ w,
    projectIf σ v = some w → NoIf w
  | .list [.str c, a, b], ht, hc, w, hw => by
    rw [ClosedIf] at hc
    obtain ⟨⟨x, hx⟩, ha, hb⟩ := hc
    rw [Tidy, TidyItems, TidyItems, TidyItems] at ht
    rw [projectIf, hx] at hw
    cases x
    · exact project_noIf σ b ht.2.2.1 hb w hw
    · exact project_noIf σ a ht.2.1 ha w hw
  | .list [], _, hc, _, _ => (closedIf_false (by simp) hc).elim
  | .list [_], _, hc, _, _ => (closedIf_false (by simp) hc).elim
  | .list [_, _], _, hc, _, _ => (closedIf_false (by simp) hc).elim
  | .list [.none, _, _], _, hc, _, _ => (closedIf_false (by simp) hc).elim
  | .list [.bool _, _, _], _, hc, _, _ => (closedIf_false (by simp) hc).elim
  | .list [.int _, _, _], _, hc, _, _ => (closedIf_false (by simp) hc).elim
  | .list [.flt _, _, _], _, hc, _, _ => (closedIf_false (by simp) hc).elim
  | .list [.list _, _, _], _, hc, _, _ => (closedIf_false (by simp) hc).elim
  | .list [.dict _, _, _], _, hc, _, _ => (closedIf_false (by simp) hc).elim
  | .list (_ :: _ :: _ :: _ :: _), _, hc, _, _ => (closedIf_false (by simp) hc).elim
  | .dict _, _, hc, _, _ => (closedIf_false (by simp) hc).elim
  | .none, _, hc, _, _ => (closedIf_false (by simp) hc).elim
  | .bool _, _, hc, _, _ => (closedIf_false (by simp) hc).elim
  | .int _, _, hc, _, _ => (closedIf_false (by simp) hc).elim
  | .flt _, _, hc, _, _ => (closedIf_false (by simp) hc).elim
  | .str _, _, hc, _, _ => (closedIf_false (by simp) hc).elim
theorem projectEntries_noIf (σ : String → Option Bool) : ∀ l : List (Key × Val), TidyEntries l →
    ClosedEntries σ l → NoIfEntries (projectEntries σ l)
  | [], _, _ => by rw [projectEntries, NoIfEntries]; trivial
  | (k, v) :: rest, ht, hc => by
    rw [TidyEntries] at ht
    rw [ClosedEntries] at hc
    have hr := projectEntries_noIf σ rest ht.2 hc.2
    rw [projectEntries]
    cases hp : project σ v with
    | none => simpa using hr
    | some w =>
      simp only [Option.elim, List.singleton_append]
      rw [NoIfEntries]
      exact ⟨project_noIf σ v ht.1 hc.1 w hp, hr⟩
theorem projectItems_noIf (σ : String → Option Bool) : ∀ l : List Val, TidyItems l →
    ClosedItems σ l → NoIfItems (projectItems σ l)
  | [], _, _ => by rw [projectItems, NoIfItems]; trivial
  | v :: rest, ht, hc => by
    rw [TidyItems] at ht
    rw [ClosedItems] at hc
    have hr := projectItems_noIf σ rest ht.2 hc.2
    rw [projectItems]
    cases hp : project σ v with
    | none => simpa using hr
    | some w =>
      simp only [Option.toList, List.singleton_append]
      rw [NoIfItems]
      exact ⟨project_noIf σ v ht.1 hc.1 w hp, hr⟩
end

theorem dset_append {k : Key} {v : Val} : ∀ {l : List (Key × Val)}, k ∉ l.map Prod.fst →
    dset k v l = l ++ [(k, v)]
  | [], _ => by simp [dset]
  | (a, b) :: l, h => by
    simp only [List.map_cons, List.mem_cons, not_or] at h
    rw [dset, if_neg (fun e => h.1 e.symm), dset_append h.2]
    rfl

theorem propsIn_project (sc : Scenario) : ∀ (l acc : List (Key × Val)), (l.map Prod.fst).Nodup →
    (∀ k ∈ l.map Prod.fst, k ∉ acc.map Prod.fst) → (∀ kv ∈ l, Flat kv.2) → ClosedEntries sc.fn l →
    propsIn sc l acc = .ok (acc ++ projectEntries sc.fn l)
  | [], acc, _, _, _, _ => by rw [propsIn, projectEntries, List.append_nil]
  | (k, v) :: rest, acc, hn, hd, hf, hc => by
    rw [ClosedEntries] at hc
    simp only [List.map_cons, List.nodup_cons] at hn
    obtain ⟨h1, h2⟩ := valueIn_flat sc v (hf _ List.mem_cons_self) hc.1
    rw [propsIn, h1, projectEntries]
    cases hp : project sc.fn v with
    | none =>
      simp only [Option.getD_none, if_true, Option.elim, List.nil_append]
      exact propsIn_project sc rest acc hn.2 (fun x hx => hd x (List.mem_cons_of_mem _ hx))
        (fun x hx => hf x (List.mem_cons_of_mem _ hx)) hc.2
    | some w =>
      have hw : w ≠ .none := fun hw => h2 (by rw [hp, hw])
      simp only [Option.getD_some, if_neg hw, Option.elim]
      rw [dset_append (hd k (by simp)), propsIn_project sc rest _ hn.2 ?_
        (fun x hx => hf x (List.mem_cons_of_mem _ hx)) hc.2, List.append_assoc]
      intro x hx
      simp only [List.map_append, List.map_cons, List.map_nil, List.mem_append, List.mem_singleton, not_or]
      refine ⟨hd x (List.mem_cons_of_mem _ hx), ?_⟩
      rintro rfl
      exact hn.1 hx

theorem valueFromScenario_project (sc : Scenario) : ∀ kvs : List (Key × Val), (kvs.map Prod.fst).Nodup →
    FlatObject kvs → Closed sc.fn (.dict kvs) →
    valueFromScenario sc (.dict kvs) = .ok ((project sc.fn (.dict kvs)).getD (.dict []))
  | [], _, _, _ => by simp [valueFromScenario, propsIn, project, projectEntries]
  | [(k, v)], hn, hf, hc => by
    rw [FlatObject] at hf
    rw [Closed] at hc
    rw [valueFromScenario, valueIn, project]
    by_cases hk : k = .str "Fn::If"
    · rw [if_pos hk] at hf hc
      obtain ⟨h1, h2⟩ := valueIf_flat sc (.dict [(k, v)]) v hf hc
      have ht : v.truthy = true := by
        match v, hc with
        | .list [], hc => exact (closedIf_false (by simp) hc).elim
        | .list (_ :: _), _ => rfl
        | .none, hc => exact (closedIf_false (by simp) hc).elim
        | .bool _, hc => exact (closedIf_false (by simp) hc).elim
        | .int _, hc => exact (closedIf_false (by simp) hc).elim
        | .flt _, hc => exact (closedIf_false (by simp) hc).elim
        | .str _, hc => exact (closedIf_false (by simp) hc).elim
        | .dict _, hc => exact (closedIf_false (by simp) hc).elim
      rw [if_pos ⟨hk, ht⟩, if_pos hk, if_pos hk, h1]
      cases hp : projectIf sc.fn v with
      | none => simp
      | some w =>
        have hw : w ≠ .none := fun hw => h2 (by rw [hp, hw])
        simp [hw]
    · rw [if_neg hk] at hf hc
      rw [if_neg (fun h => hk h.1), if_neg hk, if_neg hf.1,
        propsIn_project sc [(k, v)] [] hn (by simp) (by simpa using hf.2) (by
          rw [ClosedEntries, ClosedEntries]; exact ⟨hc, trivial⟩)]
      simp only [List.nil_append, projectEntries, List.append_nil, Option.getD_some]
  | a :: b :: l, hn, hf, hc => by
    rw [Closed.eq_2 _ _ (by simp)] at hc
    rw [valueFromScenario.eq_2 _ _ (by simp), project.eq_2 _ _ (by simp),
      propsIn_project sc (a :: b :: l) [] hn (by simp) hf hc]
    simp

mutual
theorem project_mono {σ τ : String → Option Bool} (h : ∀ c x, σ c = some x → τ c = some x) : ∀ v : Val,
    Closed σ v → project τ v = project σ v
  | .dict [], _ => by rw [project.eq_2 _ _ (by simp), project.eq_2 _ _ (by simp), projectEntries, projectEntries]
  | .dict [(k, v)], hc => by
    rw [Closed] at hc
    rw [project, project]
    split
    · rename_i hk
      rw [if_pos hk] at hc
      exact projectIf_mono h v hc
    · rename_i hk
      rw [if_neg hk] at hc
      rw [project_mono h v hc]
  | .dict (a :: b :: l), hc => by
    rw [Closed.eq_2 _ _ (by simp)] at hc
    rw [project.eq_2 _ _ (by simp), project.eq_2 _ _ (by simp), projectEntries_mono h _ hc]
  | .list xs, hc => by
    rw [Closed] at hc
    rw [project, project, projectItems_mono h xs hc]
  | .none, _ => by rw [project.eq_4 _ _ (by simp) (by simp) (by simp), project.eq_4 _ _ (by simp) (by simp) (by simp)]
  | .bool _, _ => by rw [project.eq_4 _ _ (by simp) (by simp) (by simp), project.eq_4 _ _ (by simp) (by simp) (by simp)]
  | .int _, _ => by rw [project.eq_4 _ _ (by simp) (by simp) (by simp), project.eq_4 _ _ (by simp) (by simp) (by simp)]
  | .flt _, _ => by rw [project.eq_4 _ _ (by simp) (by simp) (by simp), project.eq_4 _ _ (by simp) (by simp) (by simp)]
  | .str _, _ => by rw [project.eq_4 _ _ (by simp) (by simp) (by simp), project.eq_4 _ _ (by simp) (by simp) (by simp)]
theorem projectIf_mono {σ τ : String → Option Bool} (h : ∀ c x, σ c = some x → τ c = some x) : ∀ v : Val,
    ClosedIf σ v → projectIf τ v = projectIf σ v
  | .list [.str c, a, b], hc => by
    rw [ClosedIf] at hc
    obtain ⟨⟨x, hx⟩, ha, hb⟩ := hc
    rw [projectIf, projectIf, hx, h c x hx]
    cases x
    · exact project_mono h b hb
    · exact project_mono h a ha
  | .list [], hc => (closedIf_false (by simp) hc).elim
  | .list [_], hc => (closedIf_false (by simp) hc).elim
  | .list [_, _], hc => (closedIf_false (by simp) hc).elim
  | .list [.none, _, _], hc => (closedIf_false (by simp) hc).elim
  | .list [.bool _, _, _], hc => (closedIf_false (by simp) hc).elim
  | .list [.int _, _, _], hc => (closedIf_false (by simp) hc).elim
  | .list [.flt _, _, _], hc => (closedIf_false (by simp) hc).elim
  | .list [.list _, _, _], hc => (closedIf_false (by simp) hc).elim
  | .list [.dict _, _, _], hc => (closedIf_false (by simp) hc).elim
  | .list (_ :: _ :: _ :: _ :: _), hc => (closedIf_false (by simp) hc).elim
  | .dict _, hc => (closedIf_false (by simp) hc).elim
  | .none, hc => (closedIf_false (by simp) hc).elim
  | .bool _, hc => (closedIf_false (by simp) hc).elim
  | .int _, hc => (closedIf_false (by simp) hc).elim
  | .flt _, hc => (closedIf_false (by simp) hc).elim
  | .str _, hc => (closedIf_false (by simp) hc).elim
theorem projectEntries_mono {σ τ : String → Option Bool} (h : ∀ c x, σ c = some x → τ c = some x) :
    ∀ l : List (Key × Val), ClosedEntries σ l → projectEntries τ l = projectEntries σ l
  | [], _ => by rw [projectEntries, projectEntries]
  | (k, v) :: rest, hc => by
    rw [ClosedEntries] at hc
    rw [projectEntries, projectEntries, project_mono h v hc.1, projectEntries_mono h rest hc.2]
theorem projectItems_mono {σ τ : String → Option Bool} (h : ∀ c x, σ c = some x → τ c = some x) :
    ∀ l : List Val, ClosedItems σ l → projectItems τ l = projectItems σ l
  | [], _ => by rw [projectItems, projectItems]
  | x :: rest, hc => by
    rw [ClosedItems] at hc
    rw [projectItems, projectItems, project_mono h x hc.1, projectItems_mono h rest hc.2]
end

mutual
theorem noIf_closed {σ τ : String → Option Bool} : ∀ v : Val, NoIf v → Closed τ v → Closed σ v
  | .dict [], _, _ => by rw [Closed.eq_2 _ _ (by simp), ClosedEntries]; trivial
  | .dict [(k, v)], h, hc => by
    rw [NoIf] at h
    rw [Closed, if_neg h.1] at *
    exact noIf_closed v h.2.2 hc
  | .dict (a :: b :: l), h, hc => by
    rw [NoIf.eq_2 _ (by simp)] at h
    rw [Closed.eq_2 _ _ (by simp)] at *
    exact noIf_closedEntries _ h hc
  | .list xs, h, hc => by
    rw [NoIf] at h
    rw [Closed] at *
    exact noIf_closedItems xs h hc
  | .none, _, hc => by rw [Closed] at hc; exact hc.elim
  | .bool _, _, _ => by rw [Closed.eq_5 _ _ (by simp) (by simp) (by simp) (by simp)]; trivial
  | .int _, _, _ => by rw [Closed.eq_5 _ _ (by simp) (by simp) (by simp) (by simp)]; trivial
  | .flt _, _, _ => by rw [Closed.eq_5 _ _ (by simp) (by simp) (by simp) (by simp)]; trivial
  | .str _, _, _ => by rw [Closed.eq_5 _ _ (by simp) (by simp) (by simp) (by simp)]; trivial
theorem noIf_closedEntries {σ τ : String → Option Bool} : ∀ l : List (Key × Val), NoIfEntries l →
    ClosedEntries τ l → ClosedEntries σ l
  | [], _, _ => by rw [ClosedEntries]; trivial
  | (k, v) :: rest, h, hc => by
    rw [NoIfEntries] at h
    rw [ClosedEntries] at *
    exact ⟨noIf_closed v h.1 hc.1, noIf_closedEntries rest h.2 hc.2⟩
theorem noIf_closedItems {σ τ : String → Option Bool} : ∀ l : List Val, NoIfItems l →
    ClosedItems τ l → ClosedItems σ l
  | [], _, _ => by rw [ClosedItems]; trivial
  | v :: rest, h, hc => by
    rw [NoIfItems] at h
    rw [ClosedItems] at *
    exact ⟨noIf_closed v h.1 hc.1, noIf_closedItems rest h.2 hc.2⟩
end

mutual
/-- The conditions the linter collects from a flat value are the ones needed to resolve it. -/
theorem propConds_closed {σ τ : String → Option Bool} : ∀ v : Val, Flat v → Closed τ v →
    (∀ c ∈ propConds v, ∃ x, σ c = some x) → Closed σ v
  | .dict [], _, _, _ => by rw [Closed.eq_2 _ _ (by simp), ClosedEntries]; trivial
  | .dict [(k, v)], h, hc, hk => by
    rw [Flat] at h
    rw [Closed] at *
    rw [propConds] at hk
    by_cases hi : k = .str "Fn::If"
    · rw [if_pos hi] at *
      exact propIfConds_closed v h hc hk
    · rw [if_neg hi] at *
      rcases h with h | h
      · cases h
        rw [Closed.eq_5 _ _ (by simp) (by simp) (by simp) (by simp)]; trivial
      · exact noIf_closed v h hc
  | .dict (a :: b :: l), h, hc, _ => by
    rw [Flat.eq_2 _ (by simp)] at h
    rw [Closed.eq_2 _ _ (by simp)] at *
    exact noIf_closedEntries _ h hc
  | .list xs, h, hc, hk => by
    rw [Flat] at h
    rw [propConds] at hk
    rw [Closed] at *
    exact propListConds_closed xs h hc hk
  | .none, _, hc, _ => by rw [Closed] at hc; exact hc.elim
  | .bool _, _, _, _ => by rw [Closed.eq_5 _ _ (by simp) (by simp) (by simp) (by simp)]; trivial
  | .int _, _, _, _ => by rw [Closed.eq_5 _ _ (by simp) (by simp) (by simp) (by simp)]; trivial
  | .flt _, _, _, _ => by rw [Closed.eq_5 _ _ (by simp) (by simp) (by simp) (by simp)]; trivial
  | .str _, _, _, _ => by rw [Closed.eq_5 _ _ (by simp) (by simp) (by simp) (by simp)]; trivial
theorem propIfConds_closed {σ τ : String → Option Bool} : ∀ v : Val, FlatIf v → ClosedIf τ v →
    (∀ c ∈ propIfConds v, ∃ x, σ c = some x) → ClosedIf σ v
  | .list [.str c, a, b], h, hc, hk => by
    rw [FlatIf] at h
    rw [ClosedIf] at *
    rw [propIfConds] at hk
    exact ⟨hk c List.mem_cons_self,
      propConds_closed a h.1 hc.2.1 (fun d hd => hk d (List.mem_cons_of_mem _ (List.mem_append_left _ hd))),
      propConds_closed b h.2 hc.2.2 (fun d hd => hk d (List.mem_cons_of_mem _ (List.mem_append_right _ hd)))⟩
  | .list [], _, hc, _ => (closedIf_false (by simp) hc).elim
  | .list [_], _, hc, _ => (closedIf_false (by simp) hc).elim
  | .list [_, _], _, hc, _ => (closedIf_false (by simp) hc).elim
  | .list [.none, _, _], _, hc, _ => (closedIf_false (by simp) hc).elim
  | .list [.bool _, _, _], _, hc, _ => (closedIf_false (by simp) hc).elim
  | .list [.int _, _, _], _, hc, _ => (closedIf_false (by simp) hc).elim
  | .list [.flt _, _, _], _, hc, _ => (closedIf_false (by simp) hc).elim
  | .list [.list _, _, _], _, hc, _ => (closedIf_false (by simp) hc).elim
  | .list [.dict _, _, _], _, hc, _ => (closedIf_false (by simp) hc).elim
  | .list (_ :: _ :: _ :: _ :: _), _, hc, _ => (closedIf_false (by simp) hc).elim
  | .dict _, _, hc, _ => (closedIf_false (by simp) hc).elim
  | .none, _, hc, _ => (closedIf_false (by simp) hc).elim
  | .bool _, _, hc, _ => (closedIf_false (by simp) hc).elim
  | .int _, _, hc, _ => (closedIf_false (by simp) hc).elim
  | .flt _, _, hc, _ => (closedIf_false (by simp) hc).elim
  | .str _, _, hc, _ => (closedIf_false (by simp) hc).elim
theorem propListConds_closed {σ τ : String → Option Bool} : ∀ l : List Val, FlatItems l → ClosedItems τ l →
    (∀ c ∈ propListConds l, ∃ x, σ c = some x) → ClosedItems σ l
  | [], _, _, _ => by rw [ClosedItems]; trivial
  | v :: rest, h, hc, hk => by
    rw [FlatItems] at h
    rw [ClosedItems] at *
    rw [propListConds] at hk
    exact ⟨propConds_closed v h.1 hc.1 (fun d hd => hk d (List.mem_append_left _ hd)),
      propListConds_closed rest h.2 hc.2 (fun d hd => hk d (List.mem_append_right _ hd))⟩
end

theorem entriesConds_closed {σ τ : String → Option Bool} : ∀ l : List (Key × Val), (∀ kv ∈ l, Flat kv.2) →
    ClosedEntries τ l → (∀ c ∈ l.flatMap (fun kv => propConds kv.2), ∃ x, σ c = some x) → ClosedEntries σ l
  | [], _, _, _ => by rw [ClosedEntries]; trivial
  | (k, v) :: rest, h, hc, hk => by
    rw [ClosedEntries] at *
    rw [List.flatMap_cons] at hk
    exact ⟨propConds_closed v (h _ List.mem_cons_self) hc.1 (fun d hd => hk d (List.mem_append_left _ hd)),
      entriesConds_closed rest (fun x hx => h x (List.mem_cons_of_mem _ hx)) hc.2
        (fun d hd => hk d (List.mem_append_right _ hd))⟩

/-- the conditions collected from a branch of a root `Fn::If` resolve it unless the branch is a list -/
theorem branch_closed {σ τ : String → Option Bool} (v : Val) (hl : v.isList = false) (h : Flat v)
    (hc : Closed τ v) (hk : ∀ c ∈ branchConds [v], ∃ x, σ c = some x) : Closed σ v := by
  match v, hl, h, hc, hk with
  | .dict [(k, v)], _, h, hc, hk =>
    by_cases hi : k = .str "Fn::If"
    · refine propConds_closed _ h hc (fun c hm => hk c ?_)
      simp only [branchConds, List.flatMap_cons, List.flatMap_nil, List.append_nil, hi]
      rw [if_pos trivial]
      rwa [hi] at hm
    · refine propConds_closed _ h hc (fun c hm => ?_)
      rw [propConds, if_neg hi] at hm
      cases hm
  | .dict [], _, h, hc, _ => exact propConds_closed _ h hc (fun c hm => by simp [propConds] at hm)
  | .dict (_ :: _ :: _), _, h, hc, _ => exact propConds_closed _ h hc (fun c hm => by simp [propConds] at hm)
  | .none, _, h, hc, _ => exact propConds_closed _ h hc (fun c hm => by simp [propConds] at hm)
  | .bool _, _, h, hc, _ => exact propConds_closed _ h hc (fun c hm => by simp [propConds] at hm)
  | .int _, _, h, hc, _ => exact propConds_closed _ h hc (fun c hm => by simp [propConds] at hm)
  | .flt _, _, h, hc, _ => exact propConds_closed _ h hc (fun c hm => by simp [propConds] at hm)
  | .str _, _, h, hc, _ => exact propConds_closed _ h hc (fun c hm => by simp [propConds] at hm)

theorem branchConds_two (a b : Val) : branchConds [a, b] = branchConds [a] ++ branchConds [b] := by
  have : ∀ l, branchConds (a :: l) = branchConds [a] ++ branchConds l := by
    intro l
    cases a <;> simp [branchConds]
  exact this [b]

theorem objectConds_closed {σ τ : String → Option Bool} : ∀ kvs : List (Key × Val), FlatObject kvs →
    Closed τ (.dict kvs) → (∀ c a b, kvs = [(.str "Fn::If", .list [c, a, b])] → a.isList = false ∧ b.isList = false) →
    (∀ c ∈ objectConds (.dict kvs), ∃ x, σ c = some x) → Closed σ (.dict kvs)
  | [], _, _, _, _ => by rw [Closed.eq_2 _ _ (by simp), ClosedEntries]; trivial
  | [(k, v)], h, hc, hl, hk => by
    rw [FlatObject] at h
    rw [Closed] at *
    by_cases hi : k = .str "Fn::If"
    · rw [if_pos hi] at *
      match v, h, hc, hl, hk with
      | .list [.str c, a, b], h, hc, hl, hk =>
        obtain ⟨la, lb⟩ := hl (.str c) a b (by rw [hi])
        rw [FlatIf] at h
        rw [ClosedIf] at *
        have ho : objectConds (.dict [(k, .list [.str c, a, b])]) = c :: branchConds [a, b] := by
          simp [objectConds, hi]
        rw [ho, branchConds_two] at hk
        exact ⟨hk c List.mem_cons_self,
          branch_closed a la h.1 hc.2.1 (fun d hd => hk d (List.mem_cons_of_mem _ (List.mem_append_left _ hd))),
          branch_closed b lb h.2 hc.2.2 (fun d hd => hk d (List.mem_cons_of_mem _ (List.mem_append_right _ hd)))⟩
      | .list [], _, hc, _, _ => exact (closedIf_false (by simp) hc).elim
      | .list [_], _, hc, _, _ => exact (closedIf_false (by simp) hc).elim
      | .list [_, _], _, hc, _, _ => exact (closedIf_false (by simp) hc).elim
      | .list [.none, _, _], _, hc, _, _ => exact (closedIf_false (by simp) hc).elim
      | .list [.bool _, _, _], _, hc, _, _ => exact (closedIf_false (by simp) hc).elim
      | .list [.int _, _, _], _, hc, _, _ => exact (closedIf_false (by simp) hc).elim
      | .list [.flt _, _, _], _, hc, _, _ => exact (closedIf_false (by simp) hc).elim
      | .list [.list _, _, _], _, hc, _, _ => exact (closedIf_false (by simp) hc).elim
      | .list [.dict _, _, _], _, hc, _, _ => exact (closedIf_false (by simp) hc).elim
      | .list (_ :: _ :: _ :: _ :: _), _, hc, _, _ => exact (closedIf_false (by simp) hc).elim
      | .dict _, _, hc, _, _ => exact (closedIf_false (by simp) hc).elim
      | .none, _, hc, _, _ => exact (closedIf_false (by simp) hc).elim
      | .bool _, _, hc, _, _ => exact (closedIf_false (by simp) hc).elim
      | .int _, _, hc, _, _ => exact (closedIf_false (by simp) hc).elim
      | .flt _, _, hc, _, _ => exact (closedIf_false (by simp) hc).elim
      | .str _, _, hc, _, _ => exact (closedIf_false (by simp) hc).elim
    · rw [if_neg hi] at *
      have ho : objectConds (.dict [(k, v)]) = propConds v := by simp [objectConds, hi]
      rw [ho] at hk
      exact propConds_closed v h.2 hc hk
  | a :: b :: l, h, hc, _, hk => by
    rw [Closed.eq_2 _ _ (by simp)] at *
    have ho : objectConds (.dict (a :: b :: l)) = (a :: b :: l).flatMap (fun kv => propConds kv.2) := rfl
    rw [ho] at hk
    exact entriesConds_closed _ h hc hk

theorem objectsAll_mem {obj : Val} (f : Scenario → Val) : ∀ (scs : List Scenario),
    (∀ sc ∈ scs, valueFromScenario sc obj = .ok (f sc)) →
    ∃ l, objectsAll obj scs = .ok l ∧ l = ((scs.filter (fun sc => (f sc).truthy)).map (fun sc => (some sc, f sc)))
  | [], _ => ⟨[], rfl, rfl⟩
  | sc :: rest, h => by
    obtain ⟨l, h1, h2⟩ := objectsAll_mem f rest (fun x hx => h x (List.mem_cons_of_mem _ hx))
    rw [objectsAll, h sc List.mem_cons_self, h1]
    refine ⟨_, rfl, ?_⟩
    rw [List.filter_cons, h2]
    split <;> simp

theorem propIfConds_false {v : Val} {d : String} (h : ∀ c a b, v ≠ .list [.str c, a, b])
    (hc : d ∈ propIfConds v) : False := by
  unfold propIfConds at hc
  split at hc
  · exact h _ _ _ rfl
  · cases hc

mutual
theorem propConds_ifNames : ∀ (v : Val) (c : String), c ∈ propConds v → c ∈ ifNames v
  | .dict [], c, h => by simp [propConds] at h
  | .dict [(k, v)], c, h => by
    rw [propConds] at h
    rw [ifNames]
    split at h
    · rename_i hk
      rw [if_pos hk]
      exact propIfConds_ifNames v c h
    · cases h
  | .dict (_ :: _ :: _), c, h => by simp [propConds] at h
  | .list xs, c, h => by
    rw [propConds] at h
    rw [ifNames]
    exact propListConds_ifNames xs c h
  | .none, c, h => by simp [propConds] at h
  | .bool _, c, h => by simp [propConds] at h
  | .int _, c, h => by simp [propConds] at h
  | .flt _, c, h => by simp [propConds] at h
  | .str _, c, h => by simp [propConds] at h
theorem propIfConds_ifNames : ∀ (v : Val) (c : String), c ∈ propIfConds v → c ∈ ifNamesIf v
  | .list [.str d, a, b], c, h => by
    rw [propIfConds] at h
    rw [ifNamesIf]
    rcases List.mem_cons.1 h with h | h
    · exact h ▸ List.mem_cons_self
    · refine List.mem_cons_of_mem _ ?_
      rcases List.mem_append.1 h with h | h
      · exact List.mem_append_left _ (propConds_ifNames a c h)
      · exact List.mem_append_right _ (propConds_ifNames b c h)
  | .list [], c, h => (propIfConds_false (by simp) h).elim
  | .list [_], c, h => (propIfConds_false (by simp) h).elim
  | .list [_, _], c, h => (propIfConds_false (by simp) h).elim
  | .list [.none, _, _], c, h => (propIfConds_false (by simp) h).elim
  | .list [.bool _, _, _], c, h => (propIfConds_false (by simp) h).elim
  | .list [.int _, _, _], c, h => (propIfConds_false (by simp) h).elim
  | .list [.flt _, _, _], c, h => (propIfConds_false (by simp) h).elim
  | .list [.list _, _, _], c, h => (propIfConds_false (by simp) h).elim
  | .list [.dict _, _, _], c, h => (propIfConds_false (by simp) h).elim
  | .list (_ :: _ :: _ :: _ :: _), c, h => (propIfConds_false (by simp) h).elim
  | .dict _, c, h => (propIfConds_false (by simp) h).elim
  | .none, c, h => (propIfConds_false (by simp) h).elim
  | .bool _, c, h => (propIfConds_false (by simp) h).elim
  | .int _, c, h => (propIfConds_false (by simp) h).elim
  | .flt _, c, h => (propIfConds_false (by simp) h).elim
  | .str _, c, h => (propIfConds_false (by simp) h).elim
theorem propListConds_ifNames : ∀ (l : List Val) (c : String), c ∈ propListConds l → c ∈ ifNamesItems l
  | [], c, h => by simp [propListConds] at h
  | x :: xs, c, h => by
    rw [propListConds] at h
    rw [ifNamesItems]
    rcases List.mem_append.1 h with h | h
    · exact List.mem_append_left _ (propConds_ifNames x c h)
    · exact List.mem_append_right _ (propListConds_ifNames xs c h)
end

theorem mem_ifNamesEntries {c : String} : ∀ {l : List (Key × Val)} {kv : Key × Val}, kv ∈ l →
    c ∈ ifNames kv.2 → c ∈ ifNamesEntries l
  | a :: l, kv, hm, h => by
    rw [ifNamesEntries]
    rcases List.mem_cons.1 hm with rfl | hm
    · exact List.mem_append_left _ h
    · exact List.mem_append_right _ (mem_ifNamesEntries hm h)

theorem branchConds_ifNames (v : Val) (ht : Tidy v) (c : String) (h : c ∈ branchConds [v]) : c ∈ ifNames v := by
  match v, ht, h with
  | .dict [(k, v)], _, h =>
    simp only [branchConds, List.flatMap_cons, List.flatMap_nil, List.append_nil] at h
    split at h
    · exact propConds_ifNames _ c h
    · cases h
  | .dict [], _, h => simp [branchConds] at h
  | .dict (a :: b :: l), ht, h =>
    rw [ifNames.eq_2 _ (by simp)]
    simp only [branchConds, List.append_nil, List.mem_flatMap] at h
    obtain ⟨kv, hm, h⟩ := h
    split at h
    · rename_i hk
      rw [Tidy] at ht
      have := ht.1 (hk ▸ List.mem_map_of_mem hm)
      simp at this
    · cases h
  | .list _, _, h => simp [branchConds] at h
  | .none, _, h => simp [branchConds] at h
  | .bool _, _, h => simp [branchConds] at h
  | .int _, _, h => simp [branchConds] at h
  | .flt _, _, h => simp [branchConds] at h
  | .str _, _, h => simp [branchConds] at h

theorem objectConds_ifNames {τ : String → Option Bool} : ∀ (kvs : List (Key × Val)), Tidy (.dict kvs) →
    Closed τ (.dict kvs) → ∀ c,
    c ∈ objectConds (.dict kvs) → c ∈ ifNames (.dict kvs)
  | [], _, _, c, h => by simp [objectConds] at h
  | [(k, v)], ht, hc, c, h => by
    rw [ifNames]
    by_cases hk : k = .str "Fn::If"
    · rw [if_pos hk]
      have hl : (∃ d a b, v = .list [.str d, a, b]) ∨ ∀ d a b, v ≠ .list [.str d, a, b] := by
        by_cases he : ∃ d a b, v = .list [.str d, a, b]
        · exact .inl he
        · exact .inr (fun d a b e => he ⟨d, a, b, e⟩)
      rcases hl with ⟨d, a, b, rfl⟩ | hl
      · have ho : objectConds (.dict [(k, .list [.str d, a, b])]) = d :: branchConds [a, b] := by
          simp [objectConds, hk]
        rw [Tidy, TidyEntries, Tidy, TidyItems, TidyItems, TidyItems] at ht
        rw [ho, branchConds_two] at h
        rw [ifNamesIf]
        rcases List.mem_cons.1 h with h | h
        · exact h ▸ List.mem_cons_self
        · refine List.mem_cons_of_mem _ ?_
          rcases List.mem_append.1 h with h | h
          · exact List.mem_append_left _ (branchConds_ifNames a ht.2.2.1.2.1 c h)
          · exact List.mem_append_right _ (branchConds_ifNames b ht.2.2.1.2.2.1 c h)
      · rw [Closed, if_pos hk] at hc
        exact (closedIf_false hl hc).elim
    · rw [if_neg hk]
      have ho : objectConds (.dict [(k, v)]) = propConds v := by simp [objectConds, hk]
      rw [ho] at h
      exact propConds_ifNames v c h
  | a :: b :: l, _, _, c, h => by
    have ho : objectConds (.dict (a :: b :: l)) = (a :: b :: l).flatMap (fun kv => propConds kv.2) := rfl
    rw [ho, List.mem_flatMap] at h
    obtain ⟨kv, hm, h⟩ := h
    rw [ifNames.eq_2 _ (by simp)]
    exact mem_ifNamesEntries hm (propConds_ifNames _ c h)

theorem objectsAll_complete {obj : Val} : ∀ {scs : List Scenario} {res : List (Option Scenario × Val)}
    {sc : Scenario} {v : Val}, objectsAll obj scs = .ok res → sc ∈ scs → valueFromScenario sc obj = .ok v →
    v.truthy = true → (some sc, v) ∈ res
  | s :: rest, res, sc, v, h, hm, hv, ht => by
    rw [objectsAll] at h
    cases h1 : valueFromScenario s obj with
    | error e => rw [h1] at h; cases h
    | ok w =>
      rw [h1] at h
      cases h2 : objectsAll obj rest with
      | error e => rw [h2] at h; cases h
      | ok l =>
        rw [h2] at h
        injection h with h
        subst h
        rcases List.mem_cons.1 hm with rfl | hm
        · rw [h1] at hv
          injection hv with hv
          subst hv
          rw [if_pos ht]
          exact List.mem_cons_self
        · have := objectsAll_complete h2 hm hv ht
          split
          · exact List.mem_cons_of_mem _ this
          · exact this

end CfnLint
