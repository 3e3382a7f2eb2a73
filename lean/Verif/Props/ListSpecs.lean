import Verif.Spec.ListSpecs
import Verif.Props.PropSets
import Verif.Props.ValueSpecs
/- C82: the number of elements of lists. -/
namespace CfnLint
open Spec

/-! ### Loops -/

theorem eachDeclared_iff {ρ α : Type} {rows : List (String × ρ)} {f : String → ρ → Val → Path → PyM (List α)} {kvs : List (Key × Val)}
    {path : Path} {res : List α} (hw : (Val.dict kvs).WF) (ho : ∀ q u, Leaf (.dict kvs) q u → ∃ l, u = .dict l)
    (h : eachDeclared rows f (.dict kvs) path = .ok res) (m : α) :
    m ∈ res ↔ ∃ q l s r v out, Leaf (.dict kvs) q (.dict l) ∧ (Key.str s, v) ∈ l ∧ v ≠ noValue ∧ dlookup s rows = some r ∧
      f s r (.dict (cleaned l)) (path ++ q) = .ok out ∧ m ∈ out := by
  unfold eachDeclared at h
  simp only [itemsSafeOf] at h
  rw [mem_collectM h]
  constructor
  · rintro ⟨⟨w, p⟩, hm, out, hout, hmo⟩
    obtain ⟨q, u, hl, rfl, rfl, -⟩ := (mem_itemsSafe [] kvs path p w hw).1 hm
    obtain ⟨l, rfl⟩ := ho q u hl
    unfold declaredIn at hout
    simp only [withoutNoValue, iterOf] at hout
    obtain ⟨x, hx, out', hout', hm'⟩ := (mem_collectM hout).1 hmo
    obtain ⟨⟨k, v⟩, hkv, rfl⟩ := List.mem_map.1 hx
    obtain ⟨h1, h2⟩ := List.mem_filter.1 hkv
    cases k with
    | int i => simp only [Key.toVal] at hout'; cases hout'; cases hm'
    | str s =>
      simp only [Key.toVal] at hout'
      cases hd : dlookup s rows with
      | none => rw [hd] at hout'; cases hout'; cases hm'
      | some r =>
        rw [hd] at hout'
        exact ⟨q, l, s, r, v, out', hl, h1, by simpa using h2, hd, hout', hm'⟩
  · rintro ⟨q, l, s, r, v, out, hl, h1, h2, hd, hout, hm⟩
    have hin : (withoutNoValue (.dict l), path ++ q) ∈ itemsSafe [] kvs path :=
      (mem_itemsSafe [] kvs path _ _ hw).2 ⟨q, _, hl, rfl, rfl, by simp [okType]⟩
    obtain ⟨out', hout'⟩ := collectM_each h _ hin
    refine ⟨_, hin, out', hout', ?_⟩
    unfold declaredIn at hout'
    simp only [withoutNoValue, iterOf] at hout'
    rw [mem_collectM hout']
    refine ⟨.str s, List.mem_map.2 ⟨(.str s, v), List.mem_filter.2 ⟨h1, by simpa using h2⟩, rfl⟩, out, ?_, hm⟩
    simp only [hd]
    exact hout

/-! ### Lists under a scenario -/

theorem valuesIn_size {sc : Scenario} {σ : String → Bool} : ∀ {xs ys : List Val}, ProperItems xs →
    (∀ x ∈ xs, ∀ c, Asks c x → sc.fn c = some (σ c)) → (∀ c x, sc.fn c = some x → σ c = x) → valuesIn sc xs = .ok ys →
    ys.length = sizeOfList σ xs
  | [], ys, _, _, _, h => by rw [valuesIn] at h; cases h; simp [sizeOfList]
  | x :: xs, ys, hp, hσ, ha, h => by
    rw [ProperItems] at hp
    obtain ⟨w, hw, h1, h2⟩ := valueIn_proper sc x hp.1
    rw [valuesIn, hw] at h
    cases hr : valuesIn sc xs with
    | error e => rw [hr] at h; cases h
    | ok zs =>
      rw [hr] at h
      cases h
      have ih := valuesIn_size hp.2 (fun y hy => hσ y (List.mem_cons_of_mem _ hy)) ha hr
      unfold sizeOfList at ih ⊢
      by_cases hn : w = .none
      · rw [if_pos hn, List.filter_cons_of_neg (by simpa using h1 σ ha hn)]
        exact ih
      · rw [if_neg hn, List.filter_cons_of_pos (by simpa using fun hr => hn (h2 σ (hσ x List.mem_cons_self) hr))]
        simp [ih]

theorem chosen_notIf {σ : String → Bool} {v w : Val} {q : Path} (hn : ¬ IsIf v) : Chosen σ v q w ↔ q = [] ∧ w = v := by
  constructor
  · intro h
    cases h with
    | here => exact ⟨rfl, rfl⟩
    | left => exact absurd ⟨_, rfl⟩ hn
    | right => exact absurd ⟨_, rfl⟩ hn
  · rintro ⟨rfl, rfl⟩
    exact .here hn

theorem listOf_notIf {σ : String → Bool} {v : Val} {n : Nat} (hn : ¬ IsIf v) :
    ListOf σ v n ↔ ∃ xs, v = .list xs ∧ n = sizeOfList σ xs := by
  unfold ListOf
  constructor
  · rintro ⟨q, xs, h, hn'⟩
    exact ⟨xs, ((chosen_notIf hn).1 h).2.symm, hn'⟩
  · rintro ⟨xs, rfl, hn'⟩
    exact ⟨[], xs, .here hn, hn'⟩

theorem chosen_fnIf {σ : String → Bool} {c : String} {a b w : Val} :
    (∃ q, Chosen σ (fnIf (.str c) a b) q w) ↔ ∃ q, Chosen σ (if σ c then a else b) q w := by
  constructor
  · rintro ⟨q, h⟩
    generalize hv : fnIf (.str c) a b = v at h
    cases h with
    | here hn => exact absurd ⟨_, hv.symm⟩ hn
    | left hc h =>
      simp only [fnIf, Val.dict.injEq, List.cons.injEq, Prod.mk.injEq, true_and, and_true, Val.list.injEq, Val.str.injEq] at hv
      obtain ⟨rfl, rfl, rfl⟩ := hv
      exact ⟨_, by rw [hc]; exact h⟩
    | right hc h =>
      simp only [fnIf, Val.dict.injEq, List.cons.injEq, Prod.mk.injEq, true_and, and_true, Val.list.injEq, Val.str.injEq] at hv
      obtain ⟨rfl, rfl, rfl⟩ := hv
      exact ⟨_, by rw [hc]; exact h⟩
  · rintro ⟨q, h⟩
    cases hc : σ c with
    | true => rw [hc] at h; exact ⟨_, .left hc h⟩
    | false => rw [hc] at h; exact ⟨_, .right hc h⟩

theorem listOf_fnIf {σ : String → Bool} {c : String} {a b : Val} {n : Nat} :
    ListOf σ (fnIf (.str c) a b) n ↔ ListOf σ (if σ c then a else b) n := by
  unfold ListOf
  constructor
  · rintro ⟨q, xs, h, e⟩
    obtain ⟨q', h'⟩ := chosen_fnIf.1 ⟨q, h⟩
    exact ⟨q', xs, h', e⟩
  · rintro ⟨q, xs, h, e⟩
    obtain ⟨q', h'⟩ := chosen_fnIf.2 ⟨q, h⟩
    exact ⟨q', xs, h', e⟩

/-- the list a value is under a scenario has as many elements as under the truth values -/
theorem valueIn_size {sc : Scenario} {σ : String → Bool} (ha : ∀ c x, sc.fn c = some x → σ c = x) : ∀ {v w : Val}, Proper v →
    (∀ c, Asks c v → sc.fn c = some (σ c)) → valueIn sc v = .ok w → ∀ n, (∃ ys, w = .list ys ∧ n = ys.length) ↔ ListOf σ v n
  | .list xs, w, hp, hσ, h, n => by
    rw [valueIn] at h
    rw [Proper] at hp
    cases hv : valuesIn sc xs with
    | error e => rw [hv] at h; cases h
    | ok ys =>
      rw [hv] at h
      cases h
      rw [listOf_notIf (by simp [IsIf])]
      have := valuesIn_size hp (fun x hx c hc => hσ c (.item hx hc)) ha hv
      constructor
      · rintro ⟨ys', e, rfl⟩
        cases e
        exact ⟨xs, rfl, this⟩
      · rintro ⟨xs', e, rfl⟩
        cases e
        exact ⟨ys, rfl, this.symm⟩
  | .dict [(k, v)], w, hp, hσ, h, n => by
    rw [valueIn] at h
    by_cases hk : k = .str "Fn::If"
    · subst hk
      rw [if_pos rfl] at h
      rw [Proper] at hp
      obtain ⟨c, a, b, rfl, hpa, hpb⟩ := properIf_inv (hp rfl)
      have hc := hσ c .here
      rw [valueIf, lookupBranch_str, hc] at h
      show _ ↔ ListOf σ (fnIf (.str c) a b) n
      rw [listOf_fnIf]
      cases hx : σ c with
      | true =>
        rw [hx] at h
        exact valueIn_size ha hpa (fun d hd => hσ d (.left hd)) h n
      | false =>
        rw [hx] at h
        exact valueIn_size ha hpb (fun d hd => hσ d (.right hd)) h n
    · rw [if_neg hk] at h
      rw [listOf_notIf (by rintro ⟨x, hx⟩; simp at hx; exact hk hx.1)]
      constructor
      · rintro ⟨ys, rfl, -⟩
        split at h <;> cases h
      · rintro ⟨xs, e, -⟩
        cases e
  | .dict [], w, hp, hσ, h, n => by
    rw [listOf_notIf (by simp [IsIf])]
    rw [valueIn.eq_3 _ _ (by simp) (by simp)] at h
    cases h
    simp
  | .dict (x :: y :: zs), w, hp, hσ, h, n => by
    rw [listOf_notIf (by simp [IsIf])]
    rw [valueIn.eq_3 _ _ (by simp) (by simp)] at h
    cases h
    simp
  | .none, w, hp, hσ, h, n => by
    rw [listOf_notIf (by simp [IsIf])]
    rw [valueIn.eq_3 _ _ (by simp) (by simp)] at h
    cases h
    simp
  | .bool _, w, hp, hσ, h, n => by
    rw [listOf_notIf (by simp [IsIf])]
    rw [valueIn.eq_3 _ _ (by simp) (by simp)] at h
    cases h
    simp
  | .int _, w, hp, hσ, h, n => by
    rw [listOf_notIf (by simp [IsIf])]
    rw [valueIn.eq_3 _ _ (by simp) (by simp)] at h
    cases h
    simp
  | .flt _, w, hp, hσ, h, n => by
    rw [listOf_notIf (by simp [IsIf])]
    rw [valueIn.eq_3 _ _ (by simp) (by simp)] at h
    cases h
    simp
  | .str _, w, hp, hσ, h, n => by
    rw [listOf_notIf (by simp [IsIf])]
    rw [valueIn.eq_3 _ _ (by simp) (by simp)] at h
    cases h
    simp

/-- looking up a property in the object of a scenario -/
theorem propsIn_lookup {sc : Scenario} {k : Key} {v w : Val} : ∀ {kvs acc l : List (Key × Val)}, (kvs.map Prod.fst).Nodup →
    propsIn sc kvs acc = .ok l → (k, v) ∈ kvs → valueIn sc v = .ok w → w ≠ .none → dlookup k l = some w
  | [], _, _, _, _, hm, _, _ => by cases hm
  | (k0, v0) :: rest, acc, l, hn, h, hm, hv, hw => by
    rw [propsIn] at h
    rw [List.map_cons, List.nodup_cons] at hn
    rcases List.mem_cons.1 hm with e | hm
    · cases e
      rw [hv] at h
      simp only [if_neg hw] at h
      have key : ∀ (r acc l : List (Key × Val)), k ∉ r.map Prod.fst → propsIn sc r acc = .ok l → dlookup k l = dlookup k acc := by
        intro r
        induction r with
        | nil => intro acc l _ h; rw [propsIn] at h; cases h; rfl
        | cons x r ih =>
          obtain ⟨k1, v1⟩ := x
          intro acc l hk h
          rw [List.map_cons, List.mem_cons, not_or] at hk
          rw [propsIn] at h
          cases h1 : valueIn sc v1 with
          | error e => rw [h1] at h; cases h
          | ok w1 =>
            rw [h1] at h
            rw [ih _ _ hk.2 h]
            by_cases hn1 : w1 = .none
            · rw [if_pos hn1]
            · rw [if_neg hn1, dlookup_dset, if_neg (fun e => hk.1 e.symm)]
      rw [key _ _ _ hn.1 h, dlookup_dset, if_pos rfl]
    · cases h1 : valueIn sc v0 with
      | error e => rw [h1] at h; cases h
      | ok w0 =>
        rw [h1] at h
        exact propsIn_lookup hn.2 h hm hv hw

theorem valueFromScenario_props {sc : Scenario} {kvs m : List (Key × Val)} (hn : Key.str "Fn::If" ∉ kvs.map Prod.fst)
    (h : valueFromScenario sc (.dict kvs) = .ok (.dict m)) : propsIn sc kvs [] = .ok m := by
  have key : ∀ r : PyM (List (Key × Val)), (match r with
      | .error e => .error e
      | .ok l => .ok (Val.dict l) : PyM Val) = .ok (.dict m) → r = .ok m := by
    intro r h
    cases r with
    | error e => cases h
    | ok l => cases h; rfl
  unfold valueFromScenario at h
  split at h
  · rename_i k v heq
    cases heq
    rw [if_neg (by rintro ⟨rfl, _⟩; simp at hn)] at h
    exact key _ h
  · rename_i heq
    cases heq
    exact key _ h
  · rename_i h'
    exact absurd rfl (h' _)

theorem asks_of_if {v : Val} (hp : Proper v) (hi : IsIf v) : ∃ c, Asks c v := by
  obtain ⟨w, rfl⟩ := hi
  rw [Proper] at hp
  obtain ⟨c, a, b, rfl, -⟩ := properIf_inv (hp rfl)
  exact ⟨c, .here⟩

theorem properItems_mem : ∀ {xs : List Val}, ProperItems xs → ∀ x ∈ xs, Proper x
  | [], _, _, h => by cases h
  | y :: ys, hp, x, h => by
    rw [ProperItems] at hp
    rcases List.mem_cons.1 h with rfl | h
    · exact hp.1
    · exact properItems_mem hp.2 x h

/-- without conditions a list has all its elements but `AWS::NoValue` -/
theorem sizeOfList_plain {σ : String → Bool} {xs : List Val} (hp : ProperItems xs) (hc : ∀ c, ¬ Asks c (.list xs)) (hg : noValue ∉ xs) :
    sizeOfList σ xs = xs.length := by
  unfold sizeOfList
  rw [List.filter_eq_self.2]
  intro x hx
  simp only [decide_eq_true_eq]
  intro hr
  by_cases hi : IsIf x
  · obtain ⟨c, hc'⟩ := asks_of_if (properItems_mem hp x hx) hi
    exact hc c (.item hx hc')
  · exact hg ((removed_not_if hi).1 hr ▸ hx)

/-- the list a property is in a set has as many elements as under the truth values -/
theorem sets_size {scs : List Scenario} {l : List (Key × Val)} (hp : PlainObject l) (hn : (l.map Prod.fst).Nodup)
    {sets : List (Option Scenario × Val)} (h : objectsWithout scs (.dict l) = .ok sets) {s : Option Scenario × Val} (hs : s ∈ sets)
    {prop : String} {v : Val} (hv : (Key.str prop, v) ∈ l) {σ : String → Bool} (hσ : Agrees s.1 σ)
    (hdec : ∀ c, ObjectCond l c → Decided s.1 c) (hg : s.1 = none → NoGaps v) :
    ∃ m, s.2 = .dict m ∧ ∀ n, (∃ ys, dlookup (Key.str prop) m = some (.list ys) ∧ n = ys.length) ↔ ListOf σ v n := by
  obtain ⟨sets', h1, h2⟩ := objectsWithout_keys hp.noIf (plain_ne hp) hp.proper scs
  rw [h] at h1
  cases h1
  have hpv : Proper v := hp.proper _ hv
  rcases (h2 s).1 hs with ⟨_, rfl⟩ | ⟨sc, hsc, m, hm, hne, rfl⟩
  · refine ⟨l, rfl, fun n => ?_⟩
    have hno : ∀ c, ¬ Asks c v := fun c hc => by
      obtain ⟨_, _, e, _⟩ := hdec c ⟨_, hv, hc⟩
      cases e
    have hif : ¬ IsIf v := fun hi => by
      obtain ⟨c, hc⟩ := asks_of_if hpv hi
      exact hno c hc
    rw [listOf_notIf hif, dlookup_of_mem hn hv]
    constructor
    · rintro ⟨ys, e, rfl⟩
      cases e
      rw [Proper] at hpv
      exact ⟨ys, rfl, (sizeOfList_plain hpv hno (hg rfl [] ys ((leaf_of_notIf hif).2 ⟨rfl, rfl, by simp [noValue]⟩))).symm⟩
    · rintro ⟨xs, rfl, rfl⟩
      rw [Proper] at hpv
      exact ⟨xs, rfl, sizeOfList_plain hpv hno (hg rfl [] xs ((leaf_of_notIf hif).2 ⟨rfl, rfl, by simp [noValue]⟩))⟩
  · refine ⟨m, rfl, fun n => ?_⟩
    have ha := agrees_some hσ
    have hfn : ∀ c, Asks c v → sc.fn c = some (σ c) := fun c hc => by
      obtain ⟨x, hx⟩ := decided_fn (hdec c ⟨_, hv, hc⟩)
      rw [hx, ha c x hx]
    obtain ⟨w, hw, -⟩ := valueIn_proper sc v hpv
    rw [← valueIn_size ha hpv hfn hw]
    by_cases hwn : w = .none
    · obtain ⟨m', hm', hk⟩ := valueFromScenario_keys sc hp.noIf hp.proper
      rw [hm] at hm'
      cases hm'
      have hk' : Key.str prop ∉ m.map Prod.fst := by
        rw [hk]
        rintro ⟨v', hv', hne'⟩
        cases (dlookup_of_mem hn hv).symm.trans (dlookup_of_mem hn hv')
        exact hne' (by rw [hw, hwn])
      subst hwn
      constructor
      · rintro ⟨ys, hd, -⟩
        exact absurd (List.mem_map.2 ⟨_, dlookup_mem hd, rfl⟩) hk'
      · rintro ⟨ys, e, -⟩
        cases e
    · rw [propsIn_lookup hn (valueFromScenario_props hp.noIf hm) hv hw hwn]
      simp

/-! ### E3032 -/

theorem listBounds_iff {d : ListRow} {lo hi : Int} : listBounds d = some (lo, hi) ↔ Bounds d lo hi := by
  unfold listBounds Bounds
  cases d.listMin <;> cases d.listMax <;> simp

theorem objectCond_cleaned {l : List (Key × Val)} {c : String} : ObjectCond (cleaned l) c ↔ ObjectCond l c := by
  constructor
  · rintro ⟨kv, hm, h⟩; exact ⟨kv, (mem_cleaned.1 hm).1, h⟩
  · rintro ⟨kv, hm, h⟩
    exact ⟨kv, mem_cleaned.2 ⟨hm, fun e => by rw [e] at h; exact reached_noValue h⟩, h⟩

theorem mem_sizeIn {lo hi : Int} {prop : String} {path : Path} {s : Option Scenario × Val} {m : List (Key × Val)} (hs : s.2 = .dict m) :
    ∃ out, sizeIn lo hi prop path s = .ok out ∧ ∀ r, r ∈ out ↔ r = ⟨path ++ [.str prop], s.1⟩ ∧
      ∃ n : Nat, (∃ ys, dlookup (Key.str prop) m = some (.list ys) ∧ n = ys.length) ∧ ¬ (lo ≤ n ∧ n ≤ hi) := by
  unfold sizeIn
  rw [hs]
  simp only
  split
  · rename_i xs hd
    refine ⟨_, rfl, fun r => ?_⟩
    by_cases hb : lo ≤ xs.length ∧ xs.length ≤ hi
    · rw [if_pos hb]
      simp only [List.not_mem_nil, false_iff]
      rintro ⟨-, n, ⟨ys, hy, rfl⟩, hn⟩
      rw [hd] at hy
      cases hy
      exact hn hb
    · rw [if_neg hb]
      simp only [List.mem_singleton]
      constructor
      · rintro rfl
        exact ⟨rfl, _, ⟨xs, hd, rfl⟩, hb⟩
      · exact fun h => h.1
  · rename_i hx
    refine ⟨[], rfl, fun r => ?_⟩
    simp only [List.not_mem_nil, false_iff]
    rintro ⟨-, n, ⟨ys, hy, rfl⟩, hn⟩
    exact hx ys hy

theorem branches_dict {v : Val} (hb : PlainBranches v) : ∀ q u, Leaf v q u → ∃ l, u = .dict l := fun q u h => by
  obtain ⟨l, rfl, -⟩ := hb q u h
  exact ⟨l, rfl⟩

/-- **C82** what is reported: a property whose list has, under all truth values that agree with the scenario, too few or too many elements. -/
theorem C82_sound_partial {enum : String → List String → List String} {order : List String → List String} {tb : CondTable}
    {rows : List (String × ListRow)} {kvs : List (Key × Val)} {path : Path} {res : List ListReport}
    (hw : (Val.dict kvs).WF) (hb : PlainBranches (.dict kvs)) (h : sizeRule enum order tb rows (.dict kvs) path = .ok res)
    {r : ListReport} (hr : r ∈ res) :
    ∃ q l prop d lo hi v, Leaf (.dict kvs) q (.dict l) ∧ (Key.str prop, v) ∈ l ∧ dlookup prop rows = some d ∧ Bounds d lo hi ∧
      r.path = path ++ q ++ [.str prop] ∧
      ((∀ c, ObjectCond l c → Decided r.scenario c) → (r.scenario = none → NoGaps v) → ∀ σ, Agrees r.scenario σ →
        ∃ n : Nat, ListOf σ v n ∧ ¬ (lo ≤ n ∧ n ≤ hi)) := by
  obtain ⟨q, l, prop, d, v, out, hl, hv, hne, hd, hout, hm⟩ := (eachDeclared_iff hw (branches_dict hb) h r).1 hr
  obtain ⟨l', e, hp⟩ := hb q _ hl
  cases e
  unfold sizeValue at hout
  cases hbd : listBounds d with
  | none => rw [hbd] at hout; cases hout; cases hm
  | some b =>
    obtain ⟨lo, hi⟩ := b
    rw [hbd] at hout
    simp only at hout
    refine ⟨q, l, prop, d, lo, hi, v, hl, hv, hd, listBounds_iff.1 hbd, ?_⟩
    unfold objectWithoutConditions at hout
    cases hs : getScenarios enum tb ((order (objectConds (.dict (cleaned l)))).map Key.str) with
    | error e => rw [hs] at hout; cases hout
    | ok scs =>
      rw [hs] at hout
      cases ho : objectsWithout scs (.dict (cleaned l)) with
      | error e => simp only [ho] at hout; cases hout
      | ok sets =>
        simp only [ho] at hout
        obtain ⟨s, hs', out', hout', hm'⟩ := (mem_collectM hout).1 hm
        obtain ⟨m, hms, -⟩ := sets_sound (plain_cleaned hp) ho hs'
        obtain ⟨out'', h1, h2⟩ := mem_sizeIn (lo := lo) (hi := hi) (prop := prop) (path := path ++ q) hms
        rw [hout'] at h1
        cases h1
        obtain ⟨rfl, n, hn, hbad⟩ := (h2 r).1 hm'
        refine ⟨rfl, fun hdec hg σ hσ => ?_⟩
        obtain ⟨m', hms', hsz⟩ := sets_size (plain_cleaned hp) (cleaned_nodup (leaf_nodup hw hl)) ho hs' (mem_cleaned.2 ⟨hv, hne⟩) hσ
          (fun c hc => hdec c (objectCond_cleaned.1 hc)) hg
        rw [hms] at hms'
        cases hms'
        exact ⟨n, (hsz n).1 hn, hbad⟩

theorem hasProp_of_listOf {σ : String → Bool} {l : List (Key × Val)} {prop : String} {v : Val} {n : Nat} (hv : (Key.str prop, v) ∈ l)
    (hn : ListOf σ v n) : HasProp σ l prop := by
  refine ⟨v, hv, ?_⟩
  obtain ⟨q, xs, hc, -⟩ := hn
  clear hv
  intro hr
  induction hr generalizing q with
  | here => exact absurd ((chosen_notIf (by simp [IsIf, noValue])).1 hc).2 (by simp [noValue])
  | left h _ ih =>
    obtain ⟨q', h'⟩ := chosen_fnIf.1 ⟨q, hc⟩
    rw [h] at h'
    exact ih q' h'
  | right h _ ih =>
    obtain ⟨q', h'⟩ := chosen_fnIf.1 ⟨q, hc⟩
    rw [h] at h'
    exact ih q' h'

/-- **C82** in full: whatever the deployment, a list with too few or too many elements is reported, and nothing else. -/
def C82_statement : Prop := ∀ (H : Val → String) (fuel : Nat) (enum : String → List String → List String)
  (order : List String → List String) (t : List (Key × Val)) (tb : CondTable) (b : String → Bool) (rows : List (String × ListRow))
  (kvs : List (Key × Val)) (path : Path) (res : List ListReport) (q : Path) (l : List (Key × Val)) (prop : String) (d : ListRow)
  (lo hi : Int) (v : Val),
  SetOrder order → (Val.dict kvs).WF → PlainBranches (.dict kvs) → sizeRule enum order tb rows (.dict kvs) path = .ok res →
  Leaf (.dict kvs) q (.dict l) → Deployment H fuel enum t tb (ObjectCond l) b → dlookup prop rows = some d → Bounds d lo hi →
  (Key.str prop, v) ∈ l →
  ((∃ r ∈ res, r.path = path ++ q ++ [.str prop] ∧ Agrees r.scenario b) ↔ ∃ n : Nat, ListOf b v n ∧ ¬ (lo ≤ n ∧ n ≤ hi))

/-- **C82** whatever the deployment, the list of a property with too few or too many elements is reported. -/
theorem C82_complete_partial {H : Val → String} {fuel : Nat} {enum : String → List String → List String}
    {order : List String → List String} {t : List (Key × Val)} {tb : CondTable} {b : String → Bool} {rows : List (String × ListRow)}
    {kvs : List (Key × Val)} {path : Path} {res : List ListReport} {q : Path} {l : List (Key × Val)} {prop : String} {d : ListRow}
    {lo hi : Int} {v : Val} {n : Nat} (ho : SetOrder order) (hw : (Val.dict kvs).WF) (hb : PlainBranches (.dict kvs))
    (h : sizeRule enum order tb rows (.dict kvs) path = .ok res) (hl : Leaf (.dict kvs) q (.dict l))
    (hd : Deployment H fuel enum t tb (ObjectCond l) b) (hrow : dlookup prop rows = some d) (hbd : Bounds d lo hi)
    (hv : (Key.str prop, v) ∈ l) (hn : ListOf b v n) (hbad : ¬ (lo ≤ n ∧ n ≤ hi)) (hg : (∃ c, ObjectCond l c) ∨ NoGaps v) :
    ∃ r ∈ res, r.path = path ++ q ++ [.str prop] ∧ Agrees r.scenario b := by
  obtain ⟨l', e, hp⟩ := hb q _ hl
  cases e
  have hhas := hasProp_of_listOf hv hn
  have hne : v ≠ noValue := by
    rintro rfl
    obtain ⟨v', hv', hr'⟩ := hhas
    cases (dlookup_of_mem (leaf_nodup hw hl) hv).symm.trans (dlookup_of_mem (leaf_nodup hw hl) hv')
    exact hr' .here
  have hin : (withoutNoValue (.dict l), path ++ q) ∈ itemsSafe [] kvs path :=
    (mem_itemsSafe [] kvs path _ _ hw).2 ⟨q, _, hl, rfl, rfl, by simp [okType]⟩
  have h0 := h
  unfold sizeRule eachDeclared at h0
  simp only [itemsSafeOf] at h0
  obtain ⟨o1, ho1⟩ := collectM_each h0 _ hin
  unfold declaredIn at ho1
  simp only [withoutNoValue, iterOf] at ho1
  obtain ⟨o2, ho2⟩ := collectM_each ho1 (.str prop) (List.mem_map.2 ⟨(.str prop, v), List.mem_filter.2 ⟨hv, by simpa using hne⟩, rfl⟩)
  simp only [hrow] at ho2
  have hout : sizeValue enum order tb prop d (.dict (cleaned l)) (path ++ q) = .ok o2 := ho2
  have hmem := fun r => (eachDeclared_iff hw (branches_dict hb) h r).2
  have hout' := hout
  unfold sizeValue at hout'
  rw [listBounds_iff.2 hbd] at hout'
  simp only at hout'
  unfold objectWithoutConditions at hout'
  cases hs : getScenarios enum tb ((order (objectConds (.dict (cleaned l)))).map Key.str) with
  | error e => rw [hs] at hout'; cases hout'
  | ok scs =>
    rw [hs] at hout'
    cases hob : objectsWithout scs (.dict (cleaned l)) with
    | error e => simp only [hob] at hout'; cases hout'
    | ok sets =>
      simp only [hob] at hout'
      obtain ⟨s, hs', hag, hdec⟩ := sets_complete hd ho
        (fun c => (mem_objectConds (plain_cleaned hp).noIf).trans objectCond_cleaned) hs (plain_cleaned hp) hob
        (.inl ⟨prop, hasProp_cleaned.2 hhas⟩)
      obtain ⟨m, hms, hsz⟩ := sets_size (plain_cleaned hp) (cleaned_nodup (leaf_nodup hw hl)) hob hs' (mem_cleaned.2 ⟨hv, hne⟩) hag
          (fun c hc => hdec c (objectCond_cleaned.1 hc)) (fun hnone => by
            rcases hg with ⟨c, hc⟩ | hg
            · obtain ⟨_, _, e, _⟩ := hdec c hc
              rw [hnone] at e
              cases e
            · exact hg)
      obtain ⟨o3, h1, h2⟩ := mem_sizeIn (lo := lo) (hi := hi) (prop := prop) (path := path ++ q) hms
      refine ⟨⟨path ++ q ++ [.str prop], s.1⟩, hmem _ ⟨q, l, prop, d, v, o2, hl, hv, hne, hrow, hout, ?_⟩, rfl, hag⟩
      exact (mem_collectM hout').2 ⟨s, hs', o3, h1, (h2 _).2 ⟨rfl, n, (hsz n).2 hn, hbad⟩⟩

/-! ### Witnesses -/

/-- a list with `AWS::NoValue` and no conditions -/
def exHole : List (Key × Val) := [(.str "A", .list [.int 1, noValue]), (.str "D", .int 2)]

def exBound (lo hi : Int) : List (String × ListRow) := [("A", { type := some "List", listMin := some lo, listMax := some hi })]

theorem exHole_plain : PlainObject exHole := by
  constructor
  · decide
  · decide
  · intro kv h
    simp only [exHole, List.mem_cons, List.not_mem_nil, or_false] at h
    rcases h with rfl | rfl
    · simp [noValue, Proper, ProperItems]
    · simp [Proper]

theorem exHole_wf : (Val.dict exHole).WF := by simp [exHole, noValue, Val.WF, Val.WFDict, Val.WFList]

theorem exHole_conds {c : String} : ¬ ObjectCond exHole c := by
  rintro ⟨kv, hm, h⟩
  simp only [exHole, List.mem_cons, List.not_mem_nil, or_false] at hm
  rcases hm with rfl | rfl
  · simp only at h
    cases h with
    | item hx hc =>
      simp only [List.mem_cons, List.not_mem_nil, or_false] at hx
      rcases hx with rfl | rfl
      · cases hc
      · exact reached_noValue hc
  · cases h

theorem exHole_size (b : String → Bool) : sizeOfList b [.int 1, noValue] = 1 := by
  unfold sizeOfList
  rw [List.filter_cons_of_pos (by
      simp only [decide_eq_true_eq]
      intro h
      rw [removed_not_if (by simp [IsIf])] at h
      simp [noValue] at h),
    List.filter_cons_of_neg (by
      simp only [decide_eq_true_eq, not_not]
      exact .here)]
  rfl

theorem exHole_reported : sizeRule (fun _ s => s) List.eraseDups exOneTable (exBound 1 1) (.dict exHole) [] =
    .ok [⟨[.str "A"], none⟩] := by decide +kernel

/-- **C82** fails: without conditions in the object, elements that are `AWS::NoValue` are counted. -/
theorem C82_violated : ¬ C82_statement := by
  intro h
  have hd := exOne_deployment (s := "a") (.inl rfl) (P := ObjectCond exHole) (b := fun _ => true)
    (fun c hc => absurd hc exHole_conds) (by decide)
  have := (h exHash 5 (fun _ s => s) List.eraseDups exOne exOneTable (fun _ => true) (exBound 1 1) exHole [] _ [] exHole "A" _ 1 1
    (.list [.int 1, noValue]) setOrder_eraseDups exHole_wf (fun q u h => ⟨exHole, leaf_of_two h, exHole_plain⟩) exHole_reported
    ((leaf_of_notIf (by simp [IsIf, exHole])).2 ⟨rfl, rfl, by simp [exHole, noValue]⟩) hd rfl ⟨rfl, rfl, rfl⟩ (by simp [exHole])).1
    ⟨_, List.mem_singleton.2 rfl, rfl, by intro s e; cases e⟩
  obtain ⟨n, hn, hbad⟩ := this
  rw [listOf_notIf (by simp [IsIf])] at hn
  obtain ⟨xs, e, rfl⟩ := hn
  cases e
  rw [exHole_size] at hbad
  simp at hbad

/-- **C82** with a condition anywhere in the object they are not. -/
theorem C82_gap_with_condition : sizeRule (fun _ s => s) List.eraseDups exOneTable (exBound 1 1)
    (.dict [(.str "A", .list [.int 1, noValue]), (.str "D", fnIf (.str "C1") (.int 1) (.int 2))]) [] = .ok [] := by decide +kernel

/-- a list of one or two elements -/
def exSized : List (Key × Val) := [(.str "A", .list [.int 1, fnIf (.str "C1") (.int 1) noValue]), (.str "D", .int 2)]

theorem exSized_plain : PlainObject exSized := by
  constructor
  · decide
  · decide
  · intro kv h
    simp only [exSized, List.mem_cons, List.not_mem_nil, or_false] at h
    rcases h with rfl | rfl
    · simp [noValue, fnIf, Proper, ProperItems, ProperIf]
    · simp [Proper]

theorem exSized_wf : (Val.dict exSized).WF := by simp [exSized, fnIf, noValue, Val.WF, Val.WFDict, Val.WFList]

/-- the hypotheses of `C82_complete_partial` are met -/
example : ∃ r ∈ ([⟨[.str "A"], some [(.str "C1", some true)]⟩] : List ListReport), r.path = [] ++ [] ++ [.str "A"] ∧
    Agrees r.scenario (fun _ => true) := by
  refine C82_complete_partial (n := 2) (l := exSized) (kvs := exSized) (lo := 0) (hi := 1) (rows := exBound 0 1)
    (v := .list [.int 1, fnIf (.str "C1") (.int 1) noValue]) setOrder_eraseDups exSized_wf
    (fun q u h => ⟨exSized, leaf_of_two h, exSized_plain⟩)
    (show sizeRule (fun _ s => s) List.eraseDups exOneTable _ _ _ = _ by decide +kernel)
    ((leaf_of_notIf (by simp [IsIf, exSized])).2 ⟨rfl, rfl, by simp [exSized, noValue]⟩)
    (exOne_deployment (s := "a") (.inl rfl) ?_ (by decide)) rfl ⟨rfl, rfl, rfl⟩ (by simp [exSized]) ?_ (by decide)
    (.inl ⟨"C1", _, List.mem_cons_self, .item (List.mem_cons_of_mem _ List.mem_cons_self) .here⟩)
  · rintro c ⟨kv, hm, h⟩
    have := (mem_propConds c kv.2).2 h
    simp only [exSized, List.mem_cons, List.not_mem_nil, or_false] at hm
    rcases hm with rfl | rfl
    · simpa [propConds, propListConds, propIfConds, fnIf, noValue] using this
    · simp [propConds] at this
  · rw [listOf_notIf (by simp [IsIf])]
    refine ⟨_, rfl, ?_⟩
    unfold sizeOfList
    rw [List.filter_cons_of_pos (by
        simp only [decide_eq_true_eq]
        intro h
        rw [removed_not_if (by simp [IsIf])] at h
        simp [noValue] at h),
      List.filter_cons_of_pos (by
        simp only [decide_eq_true_eq, removed_fnIf]
        rintro (⟨-, h⟩ | ⟨h, -⟩)
        · rw [removed_not_if (by simp [IsIf])] at h
          simp [noValue] at h
        · cases h)]
    rfl

end CfnLint
