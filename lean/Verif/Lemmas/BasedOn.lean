import Verif.Spec.BasedOn
import Verif.Lemmas.PropSets
import Verif.Props.PropSets
/-
Lemmas for the rules on properties that depend on the value of another: what a scenario makes of a value, and when a value triggers.
-/
namespace CfnLint
open Spec

/-! ### What a scenario makes of a value -/

/-- a value that is not a list, not a function and not nothing is what all agreeing truth values choose -/
theorem valueIn_chosen_of (sc : Scenario) {w : Val} (hw : w ≠ .none) (hl : ∀ xs, w ≠ .list xs) (hi : ¬ IsIf w) :
    ∀ v : Val, Proper v → valueIn sc v = .ok w → ∀ σ : String → Bool, (∀ c x, sc.fn c = some x → σ c = x) → ∃ q, Chosen σ v q w
  | .dict [], _, h, σ, _ => by
    rw [valueIn.eq_3 _ _ (by simp) (by simp)] at h
    injection h with h
    subst h
    exact ⟨[], .here hi⟩
  | .dict [(k, v)], hp, h, σ, hσ => by
    rw [Proper] at hp
    rw [valueIn] at h
    by_cases hk : k = .str "Fn::If"
    · subst hk
      rw [if_pos rfl] at h
      obtain ⟨c, a, b, rfl, ha, hb⟩ := properIf_inv (hp rfl)
      rw [valueIf, lookupBranch_str] at h
      cases hc : sc.fn c with
      | none =>
        rw [hc] at h
        injection h with h
        exact absurd ⟨_, h.symm⟩ hi
      | some x =>
        rw [hc] at h
        cases x with
        | true =>
          obtain ⟨q, hq⟩ := valueIn_chosen_of sc hw hl hi a ha h σ hσ
          exact ⟨_, Chosen.left (hσ c _ hc) hq⟩
        | false =>
          obtain ⟨q, hq⟩ := valueIn_chosen_of sc hw hl hi b hb h σ hσ
          exact ⟨_, Chosen.right (hσ c _ hc) hq⟩
    · rw [if_neg hk] at h
      split at h
      · injection h with h; exact absurd h.symm hw
      · injection h with h
        subst h
        exact ⟨[], .here hi⟩
  | .dict (_ :: _ :: _), _, h, σ, _ => by
    rw [valueIn.eq_3 _ _ (by simp) (by simp)] at h
    injection h with h
    subst h
    exact ⟨[], .here hi⟩
  | .list xs, _, h, _, _ => by
    rw [valueIn] at h
    split at h
    · cases h
    · injection h with h; exact absurd h.symm (hl _)
  | .none, hp, _, _, _ => by cases hp
  | .bool _, _, h, σ, _ => by
    rw [valueIn.eq_3 _ _ (by simp) (by simp)] at h
    injection h with h
    subst h
    exact ⟨[], .here hi⟩
  | .int _, _, h, σ, _ => by
    rw [valueIn.eq_3 _ _ (by simp) (by simp)] at h
    injection h with h
    subst h
    exact ⟨[], .here hi⟩
  | .flt _, _, h, σ, _ => by
    rw [valueIn.eq_3 _ _ (by simp) (by simp)] at h
    injection h with h
    subst h
    exact ⟨[], .here hi⟩
  | .str _, _, h, σ, _ => by
    rw [valueIn.eq_3 _ _ (by simp) (by simp)] at h
    injection h with h
    subst h
    exact ⟨[], .here hi⟩

/-- a value that is neither a list nor nothing is kept by a scenario that knows the conditions -/
theorem valueIn_of_chosen {sc : Scenario} {σ : String → Bool} {v : Val} {q : Path} {u : Val} (h : Chosen σ v q u)
    (hl : ∀ xs, u ≠ .list xs) (hn : u ≠ noValue) : (∀ c, Asks c v → sc.fn c = some (σ c)) → valueIn sc v = .ok u := by
  induction h with
  | @here v hi =>
    intro _
    unfold valueIn
    split
    · rename_i k w
      rw [if_neg (by rintro rfl; exact hi ⟨_, rfl⟩), if_neg (by rintro ⟨rfl, rfl⟩; exact hn rfl)]
    · exact absurd rfl (hl _)
    · rfl
  | @left c a b q w hc _ ih =>
    intro hd
    rw [fnIf, valueIn, if_pos rfl, valueIf, lookupBranch_str, hd c .here, hc]
    exact ih hl hn (fun d hd' => hd d (.left hd'))
  | @right c a b q w hc _ ih =>
    intro hd
    rw [fnIf, valueIn, if_pos rfl, valueIf, lookupBranch_str, hd c .here, hc]
    exact ih hl hn (fun d hd' => hd d (.right hd'))

/-- the entries of the object of a scenario -/
theorem propsIn_entries (sc : Scenario) : ∀ (kvs acc l : List (Key × Val)), (kvs.map Prod.fst).Nodup →
    (∀ k ∈ kvs.map Prod.fst, k ∉ acc.map Prod.fst) → propsIn sc kvs acc = .ok l → ∀ k w, dlookup k l = some w ↔
      dlookup k acc = some w ∨ ∃ v, (k, v) ∈ kvs ∧ valueIn sc v = .ok w ∧ w ≠ .none
  | [], acc, l, _, _, h, k, w => by
    rw [propsIn] at h
    injection h with h
    subst h
    simp
  | (k0, v0) :: rest, acc, l, hnd, hdis, h, k, w => by
    rw [List.map_cons, List.nodup_cons] at hnd
    rw [propsIn] at h
    cases hv : valueIn sc v0 with
    | error e => rw [hv] at h; cases h
    | ok w0 =>
      rw [hv] at h
      simp only at h
      have h0 : k0 ∉ acc.map Prod.fst := hdis k0 (by simp)
      by_cases hw0 : w0 = .none
      · rw [if_pos hw0] at h
        rw [propsIn_entries sc rest acc l hnd.2 (fun k hk => hdis k (by simp only [List.map_cons, List.mem_cons]; exact .inr hk)) h k w]
        constructor
        · rintro (g | ⟨v, g1, g2⟩)
          · exact .inl g
          · exact .inr ⟨v, List.mem_cons_of_mem _ g1, g2⟩
        · rintro (g | ⟨v, g1, g2, g3⟩)
          · exact .inl g
          · rcases List.mem_cons.1 g1 with g1 | g1
            · injection g1 with e1 e2
              subst e2
              rw [hv] at g2
              injection g2 with g2
              exact absurd (g2.symm.trans hw0) g3
            · exact .inr ⟨v, g1, g2, g3⟩
      · rw [if_neg hw0] at h
        rw [propsIn_entries sc rest _ l hnd.2 ?_ h k w, dlookup_dset]
        · by_cases hk : k = k0
          · subst hk
            rw [if_pos rfl]
            have hnone : dlookup k acc = none := by
              cases hd : dlookup k acc with
              | none => rfl
              | some y => exact absurd (List.mem_map.2 ⟨_, dlookup_mem hd, rfl⟩) h0
            rw [hnone]
            constructor
            · rintro (g | ⟨v, g1, _⟩)
              · injection g with g
                subst g
                exact .inr ⟨v0, List.mem_cons_self, hv, hw0⟩
              · exact absurd (List.mem_map.2 ⟨_, g1, rfl⟩) hnd.1
            · rintro (g | ⟨v, g1, g2, g3⟩)
              · cases g
              · rcases List.mem_cons.1 g1 with g1 | g1
                · injection g1 with e1 e2
                  subst e2
                  rw [hv] at g2
                  injection g2 with g2
                  exact .inl (by rw [g2])
                · exact absurd (List.mem_map.2 ⟨_, g1, rfl⟩) hnd.1
          · rw [if_neg (Ne.symm hk)]
            constructor
            · rintro (g | ⟨v, g1, g2⟩)
              · exact .inl g
              · exact .inr ⟨v, List.mem_cons_of_mem _ g1, g2⟩
            · rintro (g | ⟨v, g1, g2⟩)
              · exact .inl g
              · rcases List.mem_cons.1 g1 with g1 | g1
                · injection g1 with e1 e2
                  exact absurd e1 hk
                · exact .inr ⟨v, g1, g2⟩
        · intro k hk hm
          rw [← dhas_iff, dhas, dlookup_dset] at hm
          by_cases hk0 : k = k0
          · subst hk0; exact hnd.1 hk
          · rw [if_neg (Ne.symm hk0), ← dhas, dhas_iff] at hm
            exact hdis k (by simp only [List.map_cons, List.mem_cons]; exact .inr hk) hm

/-- what an entry of the object of a scenario is -/
theorem scenario_lookup {sc : Scenario} {kvs l : List (Key × Val)} (hk : (kvs.map Prod.fst).Nodup) (hn : Key.str "Fn::If" ∉ kvs.map Prod.fst)
    (h : valueFromScenario sc (.dict kvs) = .ok (.dict l)) (k : Key) (w : Val) :
    dlookup k l = some w ↔ ∃ v, (k, v) ∈ kvs ∧ valueIn sc v = .ok w ∧ w ≠ .none := by
  have hp : propsIn sc kvs [] = .ok l := by
    unfold valueFromScenario at h
    split at h
    · rename_i k v heq
      injection heq with heq
      subst heq
      rw [if_neg (by rintro ⟨rfl, _⟩; exact hn (by simp))] at h
      cases hq : propsIn sc [(k, v)] [] with
      | error e => rw [hq] at h; cases h
      | ok m => rw [hq] at h; simp only [Except.ok.injEq, Val.dict.injEq] at h; rw [h]
    · rename_i kvs' _ heq
      injection heq with heq
      subst heq
      cases hq : propsIn sc kvs [] with
      | error e => rw [hq] at h; cases h
      | ok m => rw [hq] at h; simp only [Except.ok.injEq, Val.dict.injEq] at h; rw [h]
    · rename_i h1 h2; exact absurd rfl (h2 _)
  rw [propsIn_entries sc kvs [] l hk (by simp) hp k w]
  simp [dlookup]

/-! ### Which values trigger -/

theorem asName_iff {x : Val} {k : Key} : AsName x k ↔ toKey x = some k := by
  constructor
  · intro h; cases h <;> rfl
  · intro h
    unfold toKey at h
    split at h
    · injection h with h; subst h; exact .str _
    · injection h with h; subst h; exact .int _
    · rename_i b
      injection h with h
      subst h
      cases b
      · exact .no
      · exact .yes
    · cases h

theorem resourceTyped_wf {t : List (Key × Val)} {rs r : List (Key × Val)} {k : Key} (hw : (Val.dict t).WF) (hr : (Key.str "Resources", .dict rs) ∈ t)
    (hk : (k, .dict r) ∈ rs) : (t.map Prod.fst).Nodup ∧ (rs.map Prod.fst).Nodup ∧ (r.map Prod.fst).Nodup := by
  have h1 : (Val.dict rs).WF := at_wf (.key hr .here) hw
  have h2 : (Val.dict r).WF := at_wf (.key hk .here) h1
  rw [Val.WF] at hw h1 h2
  exact ⟨hw.1, h1.1, h2.1⟩

/-- the type that is looked up is that of the resource -/
theorem typeOfResource_of {t : Val} {k : Key} {ty : Val} (hw : t.WF) (h : ResourceTyped t k ty) (dflt : Val) :
    typeOfResource t (some k) dflt = .ok ty := by
  obtain ⟨tkvs, rs, r, rfl, h1, h2, h3⟩ := h
  obtain ⟨n1, n2, n3⟩ := resourceTyped_wf hw h1 h2
  unfold typeOfResource
  simp only [Val.getD, dlookup_of_mem n1 h1, Option.getD_some, Option.bind_some, dlookup_of_mem n2 h2, dlookup_of_mem n3 h3]

theorem resourceTyped_of {t : Val} {k : Option Key} {ty : String} {dflt : Val} (hd : dflt.getD "Type" .none ≠ .ok (.str ty))
    (h : typeOfResource t k dflt = .ok (.str ty)) : ∃ k', k = some k' ∧ ResourceTyped t k' (.str ty) := by
  unfold typeOfResource at h
  cases t with
  | dict tkvs =>
    simp only [Val.getD] at h
    cases hr : dlookup (Key.str "Resources") tkvs with
    | none => rw [hr] at h; simp at h
    | some rs =>
      rw [hr] at h
      simp only [Option.getD_some] at h
      cases rs with
      | dict rs =>
        simp only at h
        cases k with
        | none => exact absurd h hd
        | some k =>
          simp only [Option.bind_some] at h
          cases hk : dlookup k rs with
          | none => rw [hk] at h; exact absurd h hd
          | some r =>
            rw [hk] at h
            cases r with
            | dict r =>
              simp only [Option.getD_some] at h
              cases ht : dlookup (Key.str "Type") r with
              | none => rw [ht] at h; simp at h
              | some y =>
                rw [ht] at h
                simp only [Option.getD_some, Except.ok.injEq] at h
                subst h
                exact ⟨k, rfl, tkvs, rs, r, rfl, dlookup_mem hr, dlookup_mem hk, dlookup_mem ht⟩
            | _ => simp at h
      | _ => simp at h
  | _ => simp [Val.getD] at h

theorem triggers_kept {t : Val} {s : BasedOn} {u : Val} (h : Triggers t s u) :
    u ≠ .none ∧ (∀ xs, u ≠ .list xs) ∧ ¬ IsIf u ∧ (u = noValue → ∃ ty, ResourceTyped t (.str "AWS::NoValue") (.str ty)) := by
  cases h with
  | text => exact ⟨by simp, by simp, (by rintro ⟨_, h⟩; simp at h), by simp [noValue]⟩
  | ref h1 _ =>
    refine ⟨by simp, by simp, (by rintro ⟨_, h⟩; simp at h), ?_⟩
    intro h
    simp only [noValue, Val.dict.injEq, List.cons.injEq, Prod.mk.injEq, Val.str.injEq, and_true, true_and] at h
    subst h
    exact ⟨_, h1⟩
  | getAtt => exact ⟨by simp, by simp, (by rintro ⟨_, h⟩; simp at h), by simp [noValue]⟩

theorem getAtt_true {t : Val} {ga : List (String × String)} {xs : List Val} (h : basedOnGetAtt t ga xs = .ok true) :
    ∃ x k ty a more, xs = x :: .str a :: more ∧ AsName x k ∧ ResourceTyped t k (.str ty) ∧ dlookup ty ga = some a := by
  unfold basedOnGetAtt at h
  split at h
  · cases h
  · cases h
  · cases h
  · rename_i x rest _ _
    split at h
    · cases h
    · cases h
    · cases h
    · rename_i ty hty
      split at h
      · cases h
      · rename_i a ha
        split at h
        · cases h
        · rename_i y more
          simp only [Except.ok.injEq, decide_eq_true_eq] at h
          subst h
          obtain ⟨k, hk, hr⟩ := resourceTyped_of (by simp [Val.getD]) hty
          exact ⟨x, k, ty, a, more, rfl, asName_iff.2 hk, hr, ha⟩
    · cases h

/-- which values are found -/
theorem basedOnValue_iff {t : Val} {s : BasedOn} (hw : t.WF) (hg : (s.getAtts.map Prod.fst).Nodup) (v : Val) :
    basedOnValue t s v = .ok true ↔ Triggers t s v := by
  constructor
  · intro h
    unfold basedOnValue at h
    split at h
    · rename_i x
      cases hr : s.regex with
      | none => rw [hr] at h; simp at h
      | some r =>
        rw [hr] at h
        simp only [Except.ok.injEq] at h
        exact .text hr h
    · rename_i k w
      split at h
      · rename_i hk
        obtain ⟨rfl, hne⟩ := hk
        split at h
        · rename_i x
          split at h
          · cases h
          · rename_i ty hty
            simp only [Except.ok.injEq, List.any_eq_true, decide_eq_true_eq] at h
            obtain ⟨r, hr, rfl⟩ := h
            obtain ⟨k, hk, hres⟩ := resourceTyped_of (by simp [Val.getD, dlookup]) hty
            injection hk with hk
            subst hk
            exact .ref hres hr
        · cases h
      · split at h
        · rename_i hk
          obtain ⟨rfl, hne⟩ := hk
          split at h
          · obtain ⟨x, k, ty, a, more, rfl, h1, h2, h3⟩ := getAtt_true h
            exact .getAtt h1 h2 (dlookup_mem h3)
          · cases h
        · cases h
    · cases h
  · intro h
    cases h with
    | text h1 h2 => simp [basedOnValue, h1, h2]
    | ref h1 h2 =>
      have hne : s.refs ≠ [] := by intro h; rw [h] at h2; cases h2
      simp only [basedOnValue, ne_eq, hne, not_false_eq_true, and_self, if_true]
      rw [typeOfResource_of hw h1]
      simp [h2]
    | @getAtt x k ty a more h1 h2 h3 =>
      have hne : s.getAtts ≠ [] := by intro h; rw [h] at h3; cases h3
      have hk := asName_iff.1 h1
      have hx : basedOnGetAtt t s.getAtts (x :: .str a :: more) = .ok true := by
        cases h1 <;> simp [basedOnGetAtt, hk, typeOfResource_of hw h2, dlookup_of_mem hg h3]
      simp [basedOnValue, hne, hx]

theorem chosen_not_removed {σ : String → Bool} {v : Val} {q : Path} {u : Val} (h : Chosen σ v q u) (hu : u ≠ noValue) : ¬ Removed σ v := by
  induction h with
  | here hi => rw [removed_not_if hi]; exact hu
  | left hc _ ih =>
    rw [removed_fnIf]
    rintro (⟨_, h⟩ | ⟨h, _⟩)
    · exact ih hu h
    · rw [hc] at h; cases h
  | right hc _ ih =>
    rw [removed_fnIf]
    rintro (⟨h, _⟩ | ⟨_, h⟩)
    · rw [hc] at h; cases h
    · exact ih hu h

end CfnLint
