import Verif.Lemmas.PropSets
import Verif.Props.Projection
/-
C61: E2522 and E2523, at least one and exactly one of a group of properties.
C62: E2520 and E2521, properties that exclude or require others.
-/
namespace CfnLint
open Spec

/-- the order in which Python lists a set: every element once -/
def SetOrder (order : List String → List String) : Prop := ∀ l, (order l).Nodup ∧ ∀ c, c ∈ order l ↔ c ∈ l

/-- The truth values `b` of the conditions `P` are those of a deployment of the template `t`, under the restrictions of
C22: conditions compare expressions with literals, and the conditions are not more than four or related. -/
structure Deployment (H : Val → String) (fuel : Nat) (enum : String → List String → List String) (t : List (Key × Val))
    (tb : CondTable) (P : String → Prop) (b : String → Bool) : Prop where
  enumerates : Enumerates enum
  wf : (Val.dict t).WF
  noHash : NoHashLiterals H (conditionsOf t)
  init : Conditions.init H fuel (.dict t) = (tb, none)
  allowed : PlainAllowed t
  values : ∃ σ, Respects H σ ∧ Permitted t σ ∧ ∀ c, P c → ∃ v, dlookup (Key.str c) (conditionsOf t) = some v ∧
    Evals OneSided (conditionsOf t) σ v (b c)
  small : ∀ req : List String, req.Nodup → (∀ c, c ∈ req ↔ P c) →
    req.length ≤ 4 ∨ Related (conditionsOf t) (req.map Key.str)

theorem getScenarios_nil (enum : String → List String → List String) (tb : CondTable) : getScenarios enum tb [] = .ok [] := by
  unfold getScenarios
  split
  · rfl
  · simp [matchLoop]

theorem scenario_dom {enum : String → List String → List String} {tb : CondTable} {req : List String} {scs : List Scenario}
    (h : getScenarios enum tb (req.map Key.str) = .ok scs) {sc : Scenario} (hsc : sc ∈ scs) {c : String} {x : Bool}
    (hx : sc.fn c = some x) : c ∈ req := by
  unfold Scenario.fn at hx
  cases hd : dlookup (Key.str c) sc with
  | none => rw [hd] at hx; cases hx
  | some y =>
    have := (C21_exactly_requested enum tb _ scs h sc hsc (.str c)).1 ⟨y, hd⟩
    obtain ⟨d, hd, he⟩ := List.mem_map.1 this
    injection he with he
    exact he ▸ hd

theorem deployment_scenario {H : Val → String} {fuel : Nat} {enum : String → List String → List String}
    {order : List String → List String} {t : List (Key × Val)} {tb : CondTable} {P : String → Prop} {b : String → Bool}
    (hd : Deployment H fuel enum t tb P b) (ho : SetOrder order) {l : List String} (hl : ∀ c, c ∈ l ↔ P c)
    {scs : List Scenario} (h : getScenarios enum tb ((order l).map Key.str) = .ok scs) :
    (scs = [] ∧ ∀ c, ¬ P c) ∨ ∃ sc ∈ scs, (∀ c, P c → sc.fn c = some (b c)) ∧ ∀ c x, sc.fn c = some x → b c = x := by
  have hmem : ∀ c, c ∈ order l ↔ P c := fun c => ((ho l).2 c).trans (hl c)
  by_cases hne : ∃ c, P c
  · right
    obtain ⟨c0, hc0⟩ := hne
    obtain ⟨σ, hσ, hp, hev⟩ := hd.values
    obtain ⟨scs', h1, sc, hsc, hval⟩ := C22_complete_partial H fuel enum t tb σ ((order l).map Key.str)
      (fun k => match k with | .str s => b s | .int _ => false) hd.enumerates hd.wf hd.noHash hd.init hσ hp hd.allowed
      (by
        intro he
        have : Key.str c0 ∈ (order l).map Key.str := List.mem_map_of_mem ((hmem c0).2 hc0)
        rw [he] at this
        cases this)
      (by
        intro k hk
        obtain ⟨c, hc, rfl⟩ := List.mem_map.1 hk
        exact hev c ((hmem c).1 hc))
      (by rw [List.length_map]; exact hd.small _ (ho l).1 hmem)
    rw [h] at h1
    injection h1 with h1
    subst h1
    have hfn : ∀ c, P c → sc.fn c = some (b c) := by
      intro c hc
      have := hval (.str c) (List.mem_map_of_mem ((hmem c).2 hc))
      unfold Scenario.fn
      rw [this]
      rfl
    refine ⟨sc, hsc, hfn, ?_⟩
    intro c x hx
    have := hfn c ((hmem c).1 (scenario_dom h hsc hx))
    rw [this] at hx
    injection hx
  · left
    have hnil : order l = [] := by
      cases ho' : order l with
      | nil => rfl
      | cons c _ => exact absurd ⟨c, (hmem c).1 (by rw [ho']; exact List.mem_cons_self)⟩ hne
    rw [hnil, List.map_nil, getScenarios_nil] at h
    injection h with h
    exact ⟨h.symm, fun c hc => hne ⟨c, hc⟩⟩

/-! ### The object and its cleaned form -/

/-- the properties other than references to `AWS::NoValue` -/
def cleaned (l : List (Key × Val)) : List (Key × Val) := l.filter (fun kv => decide (kv.2 ≠ noValue))

theorem mem_cleaned {l : List (Key × Val)} {kv : Key × Val} : kv ∈ cleaned l ↔ kv ∈ l ∧ kv.2 ≠ noValue := by
  simp [cleaned, List.mem_filter]

theorem hasProp_cleaned {σ : String → Bool} {l : List (Key × Val)} {n : String} :
    HasProp σ (cleaned l) n ↔ HasProp σ l n := by
  constructor
  · rintro ⟨v, hm, hr⟩; exact ⟨v, (mem_cleaned.1 hm).1, hr⟩
  · rintro ⟨v, hm, hr⟩
    exact ⟨v, mem_cleaned.2 ⟨hm, fun h => hr (by simp only at h; rw [h]; exact .here)⟩, hr⟩

theorem reached_noValue {c : String} : ¬ Asks c noValue := by
  intro h
  generalize hv : noValue = v at h
  cases h <;> simp [noValue, fnIf] at hv

theorem plain_cleaned {l : List (Key × Val)} (h : PlainObject l) : PlainObject (cleaned l) := by
  refine ⟨?_, ?_, fun kv hkv => h.proper kv (mem_cleaned.1 hkv).1⟩
  · intro hm
    obtain ⟨kv, h1, h2⟩ := List.mem_map.1 hm
    exact h.noIf (List.mem_map.2 ⟨kv, (mem_cleaned.1 h1).1, h2⟩)
  · intro hm
    obtain ⟨kv, h1, h2⟩ := List.mem_map.1 hm
    exact h.noRef (List.mem_map.2 ⟨kv, (mem_cleaned.1 h1).1, h2⟩)

theorem plain_ne {l : List (Key × Val)} (h : PlainObject l) : Val.dict l ≠ noValue := by
  intro he
  unfold noValue at he
  injection he with he
  subst he
  exact h.noRef (by simp)

theorem cleaned_nodup {l : List (Key × Val)} (h : (l.map Prod.fst).Nodup) : ((cleaned l).map Prod.fst).Nodup :=
  List.Nodup.sublist (List.Sublist.map _ List.filter_sublist) h

theorem dlookup_named (kvs : List (Key × Val)) : ∀ (names : List String) (acc : List (Key × Val)) (k : Key),
    dlookup k (names.foldl (fun o n => dset (Key.str n) ((dlookup (Key.str n) kvs).getD .none) o) acc) =
      if k ∈ names.map Key.str then some ((dlookup k kvs).getD .none) else dlookup k acc
  | [], acc, k => by simp
  | n :: rest, acc, k => by
    rw [List.foldl_cons, dlookup_named kvs rest, dlookup_dset]
    simp only [List.map_cons, List.mem_cons]
    by_cases h1 : k ∈ rest.map Key.str
    · simp [h1]
    · by_cases h2 : Key.str n = k
      · subst h2; simp [h1]
      · have h3 : ¬ k = Key.str n := fun h => h2 h.symm
        simp [h1, h2, h3]

theorem named_nodup (kvs : List (Key × Val)) : ∀ (names : List String) (acc : List (Key × Val)), (acc.map Prod.fst).Nodup →
    ((names.foldl (fun o n => dset (Key.str n) ((dlookup (Key.str n) kvs).getD .none) o) acc).map Prod.fst).Nodup
  | [], _, h => h
  | n :: rest, acc, h => by
    rw [List.foldl_cons]
    exact named_nodup kvs rest _ (dset_nodup _ _ h)

/-- the conditions asked for are those of the named properties -/
theorem named_conds {kvs : List (Key × Val)} {names : List String} (hk : (kvs.map Prod.fst).Nodup) (hne : names ≠ [])
    (hn : "Fn::If" ∉ names) : ∃ o, namedObject names (.dict kvs) = .ok (.dict o) ∧
      ∀ c, c ∈ objectConds (.dict o) ↔ GroupCond kvs names c := by
  unfold namedObject
  rw [if_neg (by simpa using hne)]
  refine ⟨_, rfl, ?_⟩
  intro c
  have hkey : ∀ k, k ∈ (names.foldl (fun o n => dset (Key.str n) ((dlookup (Key.str n) kvs).getD .none) o) []).map Prod.fst →
      k ∈ names.map Key.str := by
    intro k hk
    rw [← dhas_iff, dhas, dlookup_named] at hk
    by_contra h
    rw [if_neg h] at hk
    simp [dlookup] at hk
  rw [mem_objectConds (by
    intro h
    obtain ⟨n, h1, h2⟩ := List.mem_map.1 (hkey _ h)
    injection h2 with h2
    exact hn (h2 ▸ h1))]
  constructor
  · rintro ⟨⟨k, v⟩, hm, hr⟩
    have hl := dlookup_of_mem (named_nodup kvs names [] (by simp)) hm
    rw [dlookup_named] at hl
    split at hl
    · rename_i hkm
      obtain ⟨n, hn, rfl⟩ := List.mem_map.1 hkm
      injection hl with hl
      cases hd : dlookup (Key.str n) kvs with
      | none =>
        rw [hd] at hl
        simp only [Option.getD_none] at hl
        subst hl
        generalize hv : Val.none = v at hr
        cases hr <;> simp at hv
      | some w =>
        rw [hd] at hl
        simp only [Option.getD_some] at hl
        subst hl
        exact ⟨n, hn, w, dlookup_mem hd, hr⟩
    · simp [dlookup] at hl
  · rintro ⟨n, hn, v, hm, hr⟩
    refine ⟨(.str n, v), dlookup_mem ?_, hr⟩
    rw [dlookup_named, if_pos (List.mem_map_of_mem hn), dlookup_of_mem hk hm]
    rfl

theorem groupCond_cleaned {l : List (Key × Val)} {group : List String} {c : String} :
    GroupCond (cleaned l) group c ↔ GroupCond l group c := by
  constructor
  · rintro ⟨n, hn, v, hm, hr⟩; exact ⟨n, hn, v, (mem_cleaned.1 hm).1, hr⟩
  · rintro ⟨n, hn, v, hm, hr⟩
    exact ⟨n, hn, v, mem_cleaned.2 ⟨hm, fun h => by simp only at h; rw [h] at hr; exact reached_noValue hr⟩, hr⟩

theorem agrees_some {sc : Scenario} {σ : String → Bool} (h : Agrees (some sc) σ) : ∀ c x, sc.fn c = some x → σ c = x := by
  intro c x hx
  refine h sc rfl c x ?_
  unfold Scenario.fn at hx
  cases hd : dlookup (Key.str c) sc with
  | none => rw [hd] at hx; cases hx
  | some y => rw [hd] at hx; simp at hx; rw [hx]

theorem agrees_of_fn {sc : Scenario} {σ : String → Bool} (h : ∀ c x, sc.fn c = some x → σ c = x) : Agrees (some sc) σ := by
  intro s hs c x hx
  injection hs with hs
  subst hs
  exact h c x (by unfold Scenario.fn; rw [hx]; rfl)

/-- the scenario says whether the condition holds -/
def Decided (sc : Option Scenario) (c : String) : Prop := ∃ s x, sc = some s ∧ dlookup (Key.str c) s = some (some x)

theorem decided_fn {s : Scenario} {c : String} (h : Decided (some s) c) : ∃ x, s.fn c = some x := by
  obtain ⟨s', x, he, hx⟩ := h
  injection he with he
  subst he
  exact ⟨x, by unfold Scenario.fn; rw [hx]; rfl⟩

theorem dlookup_fn {s : Scenario} {c : String} {x : Bool} (h : s.fn c = some x) : dlookup (Key.str c) s = some (some x) := by
  unfold Scenario.fn at h
  cases hd : dlookup (Key.str c) s with
  | none => rw [hd] at h; cases h
  | some y => rw [hd] at h; simp at h; rw [h]

/-! ### The property sets of one object -/

/-- what the sets of an object are: for each, which properties are present -/
theorem sets_sound {scs : List Scenario} {l : List (Key × Val)} (hp : PlainObject l) {sets : List (Option Scenario × Val)}
    (h : objectsWithout scs (.dict l) = .ok sets) {s : Option Scenario × Val} (hs : s ∈ sets) :
    ∃ m, s.2 = .dict m ∧ (∀ σ, Agrees s.1 σ → ∀ n, HasProp σ l n → Key.str n ∈ m.map Prod.fst) ∧
      (∀ σ n, Agrees s.1 σ → (∀ v, (Key.str n, v) ∈ l → v ≠ noValue ∧ ∀ c, Asks c v → Decided s.1 c) →
        Key.str n ∈ m.map Prod.fst → HasProp σ l n) ∧
      (∀ k ∈ m.map Prod.fst, k ∈ l.map Prod.fst) := by
  obtain ⟨sets', h1, h2⟩ := objectsWithout_keys hp.noIf (plain_ne hp) hp.proper scs
  rw [h] at h1
  injection h1 with h1
  subst h1
  rcases (h2 s).1 hs with ⟨_, rfl⟩ | ⟨sc, hsc, m, hm, hne, rfl⟩
  · refine ⟨l, rfl, ?_, ?_, fun k hk => hk⟩
    · rintro σ _ n ⟨v, hv, _⟩; exact List.mem_map.2 ⟨_, hv, rfl⟩
    · intro σ n _ hd hk
      obtain ⟨⟨k, v⟩, hv, he⟩ := List.mem_map.1 hk
      simp only at he
      subst he
      refine ⟨v, hv, ?_⟩
      intro hr
      generalize hw : v = w at hr
      cases hr with
      | here => exact (hd v hv).1 hw
      | left => subst hw; obtain ⟨_, _, h, _⟩ := (hd _ hv).2 _ .here; cases h
      | right => subst hw; obtain ⟨_, _, h, _⟩ := (hd _ hv).2 _ .here; cases h
  · obtain ⟨m', hm', hkeys⟩ := valueFromScenario_keys sc hp.noIf hp.proper
    rw [hm] at hm'
    injection hm' with hm'
    injection hm' with hm'
    subst hm'
    refine ⟨m, rfl, ?_, ?_, ?_⟩
    · intro σ hσ n hn
      exact scenario_keeps hp.proper hkeys (agrees_some hσ) hn
    · intro σ n hσ hd hk
      exact (scenario_hasProp hp.proper hkeys (agrees_some hσ) (fun v hv c hr => decided_fn ((hd v hv).2 c hr))).1 hk
    · intro k hk
      obtain ⟨v, hv, _⟩ := (hkeys k).1 hk
      exact List.mem_map.2 ⟨_, hv, rfl⟩

/-- a deployment is covered by a set unless the object is empty in it -/
theorem sets_complete {H : Val → String} {fuel : Nat} {enum : String → List String → List String}
    {order : List String → List String} {t : List (Key × Val)} {tb : CondTable} {P : String → Prop} {b : String → Bool}
    (hd : Deployment H fuel enum t tb P b) (ho : SetOrder order) {cs : List String} (hcs : ∀ c, c ∈ cs ↔ P c)
    {scs : List Scenario} (h : getScenarios enum tb ((order cs).map Key.str) = .ok scs) {l : List (Key × Val)}
    (hp : PlainObject l) {sets : List (Option Scenario × Val)} (hs : objectsWithout scs (.dict l) = .ok sets)
    (hne : (∃ n, HasProp b l n) ∨ ∀ c, ¬ P c) :
    ∃ s ∈ sets, Agrees s.1 b ∧ ∀ c, P c → Decided s.1 c := by
  obtain ⟨sets', h1, h2⟩ := objectsWithout_keys hp.noIf (plain_ne hp) hp.proper scs
  rw [hs] at h1
  injection h1 with h1
  subst h1
  rcases deployment_scenario hd ho hcs h with ⟨rfl, hno⟩ | ⟨sc, hsc, hfn, hag⟩
  · exact ⟨_, (h2 _).2 (.inl ⟨rfl, rfl⟩), (by intro s h; cases h), fun c hc => absurd hc (hno c)⟩
  · obtain ⟨m, hm, hkeys⟩ := valueFromScenario_keys sc hp.noIf hp.proper
    by_cases hmn : m = []
    · exfalso
      subst hmn
      rcases hne with ⟨n, hn⟩ | hno
      · have := scenario_keeps hp.proper hkeys hag hn
        simp at this
      · have hreq : order cs = [] := by
          cases ho' : order cs with
          | nil => rfl
          | cons c _ => exact absurd ((hcs c).1 (((ho cs).2 c).1 (by rw [ho']; exact List.mem_cons_self))) (hno c)
        rw [hreq, List.map_nil, getScenarios_nil] at h
        injection h with h
        subst h
        cases hsc
    · exact ⟨_, (h2 _).2 (.inr ⟨sc, hsc, m, hm, hmn, rfl⟩), agrees_of_fn hag,
        fun c hc => ⟨sc, b c, rfl, dlookup_fn (hfn c hc)⟩⟩

/-! ### Counting -/

theorem countIn_eq (m : List (Key × Val)) : ∀ group : List String,
    countIn group (.dict m) = .ok (group.filter (fun n => dhas (Key.str n) m)).length
  | [] => rfl
  | n :: rest => by
    rw [countIn, countIn_eq m rest]
    simp only [pyIn]
    cases h : dhas (Key.str n) m
    · simp [h]
    · simp [h, Nat.add_comm]

theorem count_zero {m : List (Key × Val)} {group : List String} :
    (group.filter (fun n => dhas (Key.str n) m)).length = 0 ↔ ∀ n ∈ group, Key.str n ∉ m.map Prod.fst := by
  rw [List.length_eq_zero_iff, List.filter_eq_nil_iff]
  simp only [dhas_iff]

theorem count_one {m : List (Key × Val)} {group : List String} (hg : group.Nodup) :
    (group.filter (fun n => dhas (Key.str n) m)).length = 1 ↔
      ∃ n ∈ group, Key.str n ∈ m.map Prod.fst ∧ ∀ x ∈ group, Key.str x ∈ m.map Prod.fst → x = n := by
  rw [List.length_eq_one_iff]
  constructor
  · rintro ⟨n, hn⟩
    have hmem : ∀ x, x ∈ group ∧ Key.str x ∈ m.map Prod.fst ↔ x = n := by
      intro x
      have : x ∈ group.filter (fun n => dhas (Key.str n) m) ↔ x = n := by rw [hn, List.mem_singleton]
      rw [← this, List.mem_filter, dhas_iff]
    exact ⟨n, ((hmem n).2 rfl).1, ((hmem n).2 rfl).2, fun x h1 h2 => (hmem x).1 ⟨h1, h2⟩⟩
  · rintro ⟨n, h1, h2, h3⟩
    refine ⟨n, ?_⟩
    have hnd : (group.filter (fun n => dhas (Key.str n) m)).Nodup := hg.filter _
    have hmem : ∀ x, x ∈ group.filter (fun n => dhas (Key.str n) m) ↔ x = n := by
      intro x
      rw [List.mem_filter, dhas_iff]
      exact ⟨fun h => h3 x h.1 h.2, fun h => h ▸ ⟨h1, h2⟩⟩
    cases hf : group.filter (fun n => dhas (Key.str n) m) with
    | nil => have := (hmem n).2 rfl; rw [hf] at this; cases this
    | cons y ys =>
      rw [hf] at hmem hnd
      have hy := (hmem y).1 List.mem_cons_self
      subst hy
      cases ys with
      | nil => rfl
      | cons z zs =>
        have := (hmem z).1 (by simp)
        subst this
        simp at hnd

/-! ### The reports of E2522 and E2523 -/

/-- the objects the properties can be -/
def PlainBranches (v : Val) : Prop := ∀ q u, Leaf v q u → ∃ l, u = .dict l ∧ PlainObject l

/-- the groups are lists of distinct names of properties -/
def GoodGroups (groups : List (List String)) : Prop := ∀ g ∈ groups, g ≠ [] ∧ g.Nodup ∧ "Fn::If" ∉ g

theorem leaf_nodup {v : Val} {q : Path} {l : List (Key × Val)} (hw : v.WF) (h : Leaf v q (.dict l)) : (l.map Prod.fst).Nodup := by
  have := at_wf (leaf_at h) hw
  rw [Val.WF] at this
  exact this.1

theorem mem_countCheck {enum : String → List String → List String} {order : List String → List String} {tb : CondTable}
    {bad : Nat → Bool} {kvs : List (Key × Val)} {groups : List (List String)} {path : Path} {res : List SetReport}
    (hw : (Val.dict kvs).WF) (hb : PlainBranches (.dict kvs)) (h : countCheck enum order tb bad (.dict kvs) groups path = .ok res)
    (r : SetReport) : r ∈ res ↔ ∃ group ∈ groups, ∃ q l, Leaf (.dict kvs) q (.dict l) ∧ ∃ sets,
      objectWithoutNamed enum order tb (.dict (cleaned l)) group = .ok sets ∧ ∃ s ∈ sets, ∃ c, countIn group s.2 = .ok c ∧
        bad c = true ∧ r = ⟨path, group, s.1, path ++ q⟩ := by
  unfold countCheck at h
  rw [mem_collectM h]
  refine exists_congr (fun group => and_congr_right (fun hg => ?_))
  simp only [itemsSafeOf]
  constructor
  · rintro ⟨l0, h0, hr⟩
    obtain ⟨⟨w, p⟩, hm, l1, h1, hr1⟩ := (mem_collectM h0).1 hr
    obtain ⟨q, u, hl, rfl, rfl, _⟩ := (mem_itemsSafe [] kvs path p w hw).1 hm
    obtain ⟨l, rfl, _⟩ := hb q u hl
    simp only [withoutNoValue] at h1
    refine ⟨q, l, hl, ?_⟩
    change (match objectWithoutNamed enum order tb (.dict (cleaned l)) group with
      | .error e => Except.error e
      | .ok sets => countSets bad path group (path ++ q) sets) = .ok l1 at h1
    cases hs : objectWithoutNamed enum order tb (.dict (cleaned l)) group with
    | error e => rw [hs] at h1; cases h1
    | ok sets =>
      rw [hs] at h1
      simp only [countSets] at h1
      obtain ⟨s, hs', l2, h2, hr2⟩ := (mem_collectM h1).1 hr1
      refine ⟨sets, rfl, s, hs', ?_⟩
      cases hc : countIn group s.2 with
      | error e => simp only [hc] at h2; cases h2
      | ok c =>
        simp only [hc] at h2
        injection h2 with h2
        subst h2
        split at hr2
        · rename_i hbad
          exact ⟨c, rfl, hbad, List.mem_singleton.1 hr2⟩
        · cases hr2
  · rintro ⟨q, l, hl, sets, hs, s, hs', c, hc, hbad, rfl⟩
    obtain ⟨l0, h0⟩ := collectM_each h group hg
    simp only [itemsSafeOf] at h0
    refine ⟨l0, h0, (mem_collectM h0).2 ?_⟩
    have hm : (Val.dict (cleaned l), path ++ q) ∈ itemsSafe [] kvs path :=
      (mem_itemsSafe [] kvs path _ _ hw).2 ⟨q, _, hl, rfl, rfl, rfl⟩
    obtain ⟨l1, h1⟩ := collectM_each h0 _ hm
    refine ⟨_, hm, l1, h1, ?_⟩
    simp only [hs, countSets] at h1
    refine (mem_collectM h1).2 ⟨s, hs', [⟨path, group, s.1, path ++ q⟩], ?_, List.mem_singleton.2 rfl⟩
    simp [hc, hbad]

theorem named_sets {enum : String → List String → List String} {order : List String → List String} {tb : CondTable}
    {l : List (Key × Val)} {group : List String} {sets : List (Option Scenario × Val)} (hk : (l.map Prod.fst).Nodup)
    (hg : group ≠ []) (hn : "Fn::If" ∉ group)
    (h : objectWithoutNamed enum order tb (.dict (cleaned l)) group = .ok sets) :
    ∃ cs scs, (∀ c, c ∈ cs ↔ GroupCond l group c) ∧ getScenarios enum tb ((order cs).map Key.str) = .ok scs ∧
      objectsWithout scs (.dict (cleaned l)) = .ok sets := by
  obtain ⟨o, ho, hc⟩ := named_conds (cleaned_nodup hk) hg hn
  unfold objectWithoutNamed at h
  rw [ho] at h
  simp only at h
  cases hs : getScenarios enum tb ((order (objectConds (.dict o))).map Key.str) with
  | error e => rw [hs] at h; cases h
  | ok scs =>
    rw [hs] at h
    exact ⟨_, scs, fun c => (hc c).trans groupCond_cleaned, hs, h⟩

/-- which properties of the group a set of the cleaned object has -/
theorem group_sound {scs : List Scenario} {l : List (Key × Val)} (hp : PlainObject l) {sets : List (Option Scenario × Val)}
    (h : objectsWithout scs (.dict (cleaned l)) = .ok sets) {s : Option Scenario × Val} (hs : s ∈ sets) {group : List String} :
    ∃ m, s.2 = .dict m ∧ ∀ σ, Agrees s.1 σ → ∀ n ∈ group, (HasProp σ l n → Key.str n ∈ m.map Prod.fst) ∧
      ((∀ c, GroupCond l group c → Decided s.1 c) → Key.str n ∈ m.map Prod.fst → HasProp σ l n) := by
  obtain ⟨m, h1, h2, h3, _⟩ := sets_sound (plain_cleaned hp) h hs
  refine ⟨m, h1, fun σ hσ n hn => ⟨fun h => h2 σ hσ n (hasProp_cleaned.2 h), fun hd hk => ?_⟩⟩
  refine hasProp_cleaned.1 (h3 σ n hσ ?_ hk)
  intro v hv
  exact ⟨(mem_cleaned.1 hv).2, fun c hr => hd c ⟨n, hn, v, (mem_cleaned.1 hv).1, hr⟩⟩

/-- **C61** E2522, what is reported: an object the properties can be, under whose scenario it has none of the group. -/
theorem C61_at_least_one_sound {enum : String → List String → List String} {order : List String → List String}
    {tb : CondTable} {kvs : List (Key × Val)} {groups : List (List String)} {path : Path} {res : List SetReport}
    (hw : (Val.dict kvs).WF) (hb : PlainBranches (.dict kvs)) (hgs : GoodGroups groups)
    (h : atLeastOneCheck enum order tb (.dict kvs) groups path = .ok res) {r : SetReport} (hr : r ∈ res) :
    r.path = path ∧ r.names ∈ groups ∧ ∃ q l, Leaf (.dict kvs) q (.dict l) ∧ r.place = path ++ q ∧
      ∀ σ, Agrees r.scenario σ → ∀ n ∈ r.names, ¬ HasProp σ l n := by
  obtain ⟨group, hg, q, l, hl, sets, hsets, s, hs, c, hc, hbad, rfl⟩ := (mem_countCheck hw hb h r).1 hr
  refine ⟨rfl, hg, q, l, hl, rfl, ?_⟩
  obtain ⟨_, he, hp⟩ := hb q _ hl
  injection he with he
  subst he
  obtain ⟨cs, scs, _, _, ho⟩ := named_sets (leaf_nodup hw hl) (hgs _ hg).1 (hgs _ hg).2.2 hsets
  obtain ⟨m, hm, hprop⟩ := group_sound hp ho hs (group := group)
  rw [hm, countIn_eq] at hc
  injection hc with hc
  have hz : c = 0 := by simpa [noneOf] using hbad
  rw [hz, count_zero] at hc
  intro σ hσ n hn hh
  exact hc n hn ((hprop σ hσ n hn).1 hh)

/-- **C61** E2522 in full: whenever a deployment makes the properties an object with none of a group, this is reported. -/
def C61_statement : Prop := ∀ (H : Val → String) (fuel : Nat) (enum : String → List String → List String)
  (order : List String → List String) (t : List (Key × Val)) (tb : CondTable) (b : String → Bool) (kvs : List (Key × Val))
  (groups : List (List String)) (path : Path) (res : List SetReport) (q : Path) (l : List (Key × Val)) (group : List String),
  SetOrder order → (Val.dict kvs).WF → PlainBranches (.dict kvs) → GoodGroups groups →
  atLeastOneCheck enum order tb (.dict kvs) groups path = .ok res → group ∈ groups → Chosen b (.dict kvs) q (.dict l) →
  Deployment H fuel enum t tb (GroupCond l group) b → (∀ n ∈ group, ¬ HasProp b l n) →
  ∃ r ∈ res, r.path = path ∧ r.names = group ∧ r.place = path ++ q ∧ Agrees r.scenario b

/-- **C61** E2522, what holds: it is reported if the object is left with some other property, or if the properties of the
group have no conditions. Missing for the full statement: objects that are left empty. -/
theorem C61_at_least_one_complete_partial {H : Val → String} {fuel : Nat} {enum : String → List String → List String}
    {order : List String → List String} {t : List (Key × Val)} {tb : CondTable} {b : String → Bool} {kvs : List (Key × Val)}
    {groups : List (List String)} {path : Path} {res : List SetReport} {q : Path} {l : List (Key × Val)} {group : List String}
    (ho : SetOrder order) (hw : (Val.dict kvs).WF) (hb : PlainBranches (.dict kvs)) (hgs : GoodGroups groups)
    (h : atLeastOneCheck enum order tb (.dict kvs) groups path = .ok res) (hg : group ∈ groups)
    (hl : Leaf (.dict kvs) q (.dict l)) (hd : Deployment H fuel enum t tb (GroupCond l group) b)
    (hno : ∀ n ∈ group, ¬ HasProp b l n) (hne : (∃ n, HasProp b l n) ∨ ∀ c, ¬ GroupCond l group c) :
    ∃ r ∈ res, r.path = path ∧ r.names = group ∧ r.place = path ++ q ∧ Agrees r.scenario b := by
  obtain ⟨_, he, hp⟩ := hb q _ hl
  injection he with he
  subst he
  obtain ⟨l0, h0⟩ := collectM_each h group hg
  simp only [itemsSafeOf] at h0
  have hm : (Val.dict (cleaned l), path ++ q) ∈ itemsSafe [] kvs path :=
    (mem_itemsSafe [] kvs path _ _ hw).2 ⟨q, _, hl, rfl, rfl, rfl⟩
  obtain ⟨l1, h1⟩ := collectM_each h0 _ hm
  cases hs : objectWithoutNamed enum order tb (.dict (cleaned l)) group with
  | error e => simp only [hs] at h1; cases h1
  | ok sets =>
    obtain ⟨cs, scs, hcs, hsc, hobj⟩ := named_sets (leaf_nodup hw hl) (hgs _ hg).1 (hgs _ hg).2.2 hs
    obtain ⟨s, hsm, hag, hdec⟩ := sets_complete hd ho hcs hsc (plain_cleaned hp) hobj
      (hne.imp (fun ⟨n, hn⟩ => ⟨n, hasProp_cleaned.2 hn⟩) id)
    obtain ⟨m, hmv, hprop⟩ := group_sound hp hobj hsm (group := group)
    refine ⟨⟨path, group, s.1, path ++ q⟩, (mem_countCheck hw hb h _).2 ⟨group, hg, q, l, hl, sets, hs, s, hsm, 0, ?_, rfl, rfl⟩,
      rfl, rfl, rfl, hag⟩
    rw [hmv, countIn_eq]
    congr 1
    rw [count_zero]
    intro n hn hk
    exact hno n hn ((hprop b hag n hn).2 hdec hk)

/-- **C61** E2523, what is reported: an object the properties can be, under whose scenario it does not have exactly one of
the group; the scenario has to decide the conditions of the group. -/
theorem C61_only_one_sound_partial {enum : String → List String → List String} {order : List String → List String}
    {tb : CondTable} {kvs : List (Key × Val)} {groups : List (List String)} {path : Path} {res : List SetReport}
    (hw : (Val.dict kvs).WF) (hb : PlainBranches (.dict kvs)) (hgs : GoodGroups groups)
    (h : onlyOneCheck enum order tb (.dict kvs) groups path = .ok res) {r : SetReport} (hr : r ∈ res) :
    r.path = path ∧ r.names ∈ groups ∧ ∃ q l, Leaf (.dict kvs) q (.dict l) ∧ r.place = path ++ q ∧
      ((∀ c, GroupCond l r.names c → Decided r.scenario c) → ∀ σ, Agrees r.scenario σ → ¬ ExactlyOne σ l r.names) := by
  obtain ⟨group, hg, q, l, hl, sets, hsets, s, hs, c, hc, hbad, rfl⟩ := (mem_countCheck hw hb h r).1 hr
  refine ⟨rfl, hg, q, l, hl, rfl, ?_⟩
  obtain ⟨_, he, hp⟩ := hb q _ hl
  injection he with he
  subst he
  obtain ⟨cs, scs, _, _, ho⟩ := named_sets (leaf_nodup hw hl) (hgs _ hg).1 (hgs _ hg).2.2 hsets
  obtain ⟨m, hm, hprop⟩ := group_sound hp ho hs (group := group)
  rw [hm, countIn_eq] at hc
  injection hc with hc
  have hz : c ≠ 1 := by simpa [notOneOf] using hbad
  rintro hdec σ hσ ⟨n, hn, h1, h2⟩
  refine hz (hc ▸ (count_one (hgs _ hg).2.1).2 ⟨n, hn, (hprop σ hσ n hn).1 h1, fun x hx hk => h2 x hx ((hprop σ hσ x hx).2 hdec hk)⟩)

/-- **C61** E2523, what holds: an object without exactly one of the group is reported, unless a deployment leaves it empty
and the group has conditions. -/
theorem C61_only_one_complete_partial {H : Val → String} {fuel : Nat} {enum : String → List String → List String}
    {order : List String → List String} {t : List (Key × Val)} {tb : CondTable} {b : String → Bool} {kvs : List (Key × Val)}
    {groups : List (List String)} {path : Path} {res : List SetReport} {q : Path} {l : List (Key × Val)} {group : List String}
    (ho : SetOrder order) (hw : (Val.dict kvs).WF) (hb : PlainBranches (.dict kvs)) (hgs : GoodGroups groups)
    (h : onlyOneCheck enum order tb (.dict kvs) groups path = .ok res) (hg : group ∈ groups)
    (hl : Leaf (.dict kvs) q (.dict l)) (hd : Deployment H fuel enum t tb (GroupCond l group) b)
    (hno : ¬ ExactlyOne b l group) (hne : (∃ n, HasProp b l n) ∨ ∀ c, ¬ GroupCond l group c) :
    ∃ r ∈ res, r.path = path ∧ r.names = group ∧ r.place = path ++ q ∧ Agrees r.scenario b := by
  obtain ⟨_, he, hp⟩ := hb q _ hl
  injection he with he
  subst he
  obtain ⟨l0, h0⟩ := collectM_each h group hg
  simp only [itemsSafeOf] at h0
  have hm : (Val.dict (cleaned l), path ++ q) ∈ itemsSafe [] kvs path :=
    (mem_itemsSafe [] kvs path _ _ hw).2 ⟨q, _, hl, rfl, rfl, rfl⟩
  obtain ⟨l1, h1⟩ := collectM_each h0 _ hm
  cases hs : objectWithoutNamed enum order tb (.dict (cleaned l)) group with
  | error e => simp only [hs] at h1; cases h1
  | ok sets =>
    obtain ⟨cs, scs, hcs, hsc, hobj⟩ := named_sets (leaf_nodup hw hl) (hgs _ hg).1 (hgs _ hg).2.2 hs
    obtain ⟨s, hsm, hag, hdec⟩ := sets_complete hd ho hcs hsc (plain_cleaned hp) hobj
      (hne.imp (fun ⟨n, hn⟩ => ⟨n, hasProp_cleaned.2 hn⟩) id)
    obtain ⟨m, hmv, hprop⟩ := group_sound hp hobj hsm (group := group)
    refine ⟨⟨path, group, s.1, path ++ q⟩, (mem_countCheck hw hb h _).2 ⟨group, hg, q, l, hl, sets, hs, s, hsm, _, by
      rw [hmv, countIn_eq], ?_, rfl⟩, rfl, rfl, rfl, hag⟩
    simp only [notOneOf, bne_iff_ne, ne_eq, count_one (hgs _ hg).2.1]
    rintro ⟨n, hn, h2, h3⟩
    exact hno ⟨n, hn, (hprop b hag n hn).2 hdec h2, fun x hx hh => h3 x hx ((hprop b hag x hx).1 hh)⟩

/-! ### E2520 and E2521 -/

theorem mem_pairSet {present : Bool} {table : List (String × List String)} {report : Key → Path} {sc : Option Scenario}
    {obj : List (Key × Val)} {r : PairReport} : r ∈ pairSet present table report sc obj ↔
      ∃ s others, Key.str s ∈ obj.map Prod.fst ∧ dlookup s table = some others ∧ r.other ∈ others ∧
        dhas (Key.str r.other) obj = present ∧ r = ⟨report (.str s), .str s, r.other, sc⟩ := by
  unfold pairSet
  rw [List.mem_flatMap]
  constructor
  · rintro ⟨⟨k, v⟩, hm, hr⟩
    cases k with
    | int i => simp at hr
    | str s =>
      simp only at hr
      cases hd : dlookup s table with
      | none => rw [hd] at hr; cases hr
      | some others =>
        rw [hd] at hr
        simp only [List.mem_map, List.mem_filter, beq_iff_eq] at hr
        obtain ⟨o, ⟨h1, h2⟩, rfl⟩ := hr
        exact ⟨s, others, List.mem_map.2 ⟨_, hm, rfl⟩, hd, h1, h2, rfl⟩
  · rintro ⟨s, others, hk, hd, ho, hp, he⟩
    obtain ⟨⟨k, v⟩, hm, hk⟩ := List.mem_map.1 hk
    simp only at hk
    subst hk
    refine ⟨_, hm, ?_⟩
    simp only [hd, List.mem_map, List.mem_filter, beq_iff_eq]
    exact ⟨r.other, ⟨ho, hp⟩, he.symm⟩

theorem cleanOf_keys (m : List (Key × Val)) : ∃ m', cleanOf (.dict m) = .ok m' ∧
    (∀ k, k ∈ m'.map Prod.fst ↔ ∃ v, (k, v) ∈ m ∧ v ≠ noValue) := by
  refine ⟨_, rfl, ?_⟩
  have key : ∀ (m acc : List (Key × Val)) (k : Key), k ∈ (cleanLoop m acc).map Prod.fst ↔
      k ∈ acc.map Prod.fst ∨ ∃ v, (k, v) ∈ m ∧ v ≠ noValue := by
    intro m
    induction m with
    | nil => intro acc k; simp [cleanLoop]
    | cons kv rest ih =>
      intro acc k
      obtain ⟨k0, v0⟩ := kv
      rw [cleanLoop]
      have hnv : isNoValueRef v0 = true ↔ v0 = noValue := by
        unfold isNoValueRef noValue
        split
        · simp
        · rename_i h
          constructor
          · intro h'; cases h'
          · rintro rfl; exact absurd rfl (h _ _)
      by_cases hv : isNoValueRef v0 = true
      · rw [if_pos hv, ih]
        have hv' := hnv.1 hv
        constructor
        · rintro (h | ⟨v, h1, h2⟩)
          · exact .inl h
          · exact .inr ⟨v, List.mem_cons_of_mem _ h1, h2⟩
        · rintro (h | ⟨v, h1, h2⟩)
          · exact .inl h
          · rw [List.mem_cons] at h1
            rcases h1 with h1 | h1
            · simp only [Prod.mk.injEq] at h1; exact absurd (h1.2.trans hv') h2
            · exact .inr ⟨v, h1, h2⟩
      · rw [if_neg hv, ih, dset_keys]
        have hv' : v0 ≠ noValue := fun h => hv (hnv.2 h)
        constructor
        · rintro (h | ⟨v, h1, h2⟩)
          · split at h
            · exact .inl h
            · rw [List.mem_append, List.mem_singleton] at h
              rcases h with h | rfl
              · exact .inl h
              · exact .inr ⟨v0, List.mem_cons_self, hv'⟩
          · exact .inr ⟨v, List.mem_cons_of_mem _ h1, h2⟩
        · rintro (h | ⟨v, h1, h2⟩)
          · left; split
            · exact h
            · exact List.mem_append_left _ h
          · rw [List.mem_cons] at h1
            rcases h1 with h1 | h1
            · simp only [Prod.mk.injEq] at h1
              obtain ⟨rfl, rfl⟩ := h1
              left; split
              · assumption
              · simp
            · exact .inr ⟨v, h1, h2⟩
  intro k
  rw [key]
  simp

theorem noValue_of_valueIn (sc : Scenario) : ∀ (v w : Val), valueIn sc v = .ok w → w ≠ noValue
  | .dict [], w, h => by rw [valueIn.eq_3 _ _ (by simp) (by simp)] at h; injection h with h; subst h; simp [noValue]
  | .dict [(k, v)], w, h => by
    rw [valueIn] at h
    split at h
    · rename_i hk
      subst hk
      unfold valueIf at h
      split at h
      · rename_i c a b
        split at h
        · cases h
        · exact noValue_of_valueIn sc a w h
        · exact noValue_of_valueIn sc b w h
        · injection h with h; subst h; simp [noValue]
      · split at h
        · injection h with h
          subst h
          split <;> simp [noValue]
        · injection h with h; subst h; simp [noValue]
      · split at h
        · cases h
        · injection h with h; subst h; simp [noValue]
    · split at h
      · injection h with h; subst h; simp [noValue]
      · rename_i h2
        injection h with h
        subst h
        simpa [noValue] using h2
  | .dict (x :: y :: zs), w, h => by rw [valueIn.eq_3 _ _ (by simp) (by simp)] at h; injection h with h; subst h; simp [noValue]
  | .list xs, w, h => by
    rw [valueIn] at h
    split at h
    · cases h
    · injection h with h; subst h; simp [noValue]
  | .none, w, h => by rw [valueIn.eq_3 _ _ (by simp) (by simp)] at h; injection h with h; subst h; simp [noValue]
  | .bool _, w, h => by rw [valueIn.eq_3 _ _ (by simp) (by simp)] at h; injection h with h; subst h; simp [noValue]
  | .int _, w, h => by rw [valueIn.eq_3 _ _ (by simp) (by simp)] at h; injection h with h; subst h; simp [noValue]
  | .flt _, w, h => by rw [valueIn.eq_3 _ _ (by simp) (by simp)] at h; injection h with h; subst h; simp [noValue]
  | .str _, w, h => by rw [valueIn.eq_3 _ _ (by simp) (by simp)] at h; injection h with h; subst h; simp [noValue]

theorem of_mem_dset {k k0 : Key} {w w0 : Val} : ∀ {d : List (Key × Val)}, (k, w) ∈ dset k0 w0 d → w = w0 ∨ (k, w) ∈ d
  | [], h => by simp [dset] at h; exact .inl h.2
  | (k1, v1) :: d, h => by
    rw [dset] at h
    split at h
    · rw [List.mem_cons] at h
      rcases h with h | h
      · simp at h; exact .inl h.2
      · exact .inr (List.mem_cons_of_mem _ h)
    · rw [List.mem_cons] at h
      rcases h with h | h
      · exact .inr (h ▸ List.mem_cons_self)
      · exact (of_mem_dset h).imp id (List.mem_cons_of_mem _)

theorem noValue_of_propsIn (sc : Scenario) : ∀ (kvs acc l : List (Key × Val)), (∀ kv ∈ acc, kv.2 ≠ noValue) →
    propsIn sc kvs acc = .ok l → ∀ kv ∈ l, kv.2 ≠ noValue
  | [], acc, l, ha, h => by rw [propsIn] at h; injection h with h; subst h; exact ha
  | (k, v) :: rest, acc, l, ha, h => by
    rw [propsIn] at h
    cases hv : valueIn sc v with
    | error e => rw [hv] at h; cases h
    | ok w =>
      rw [hv] at h
      refine noValue_of_propsIn sc rest _ l ?_ h
      intro kv hkv
      split at hkv
      · exact ha kv hkv
      · rcases of_mem_dset (k := kv.1) (w := kv.2) hkv with h1 | h1
        · rw [h1]; exact noValue_of_valueIn sc v w hv
        · exact ha _ h1

theorem noValue_of_scenario {sc : Scenario} {kvs m : List (Key × Val)} (hn : Key.str "Fn::If" ∉ kvs.map Prod.fst)
    (h : valueFromScenario sc (.dict kvs) = .ok (.dict m)) : ∀ kv ∈ m, kv.2 ≠ noValue := by
  have hprops : ∃ l, propsIn sc kvs [] = .ok l ∧ l = m := by
    unfold valueFromScenario at h
    split at h
    · rename_i k v heq
      injection heq with heq
      subst heq
      rw [if_neg (by rintro ⟨rfl, _⟩; simp at hn)] at h
      split at h
      · cases h
      · rename_i l hl
        injection h with h
        injection h with h
        exact ⟨l, hl, h⟩
    · rename_i heq
      injection heq with heq
      subst heq
      split at h
      · cases h
      · rename_i l hl
        injection h with h
        injection h with h
        exact ⟨l, hl, h⟩
    · rename_i h'
      exact absurd rfl (h' _)
  obtain ⟨l, hl, rfl⟩ := hprops
  exact noValue_of_propsIn sc kvs [] l (by simp) hl

/-- which properties a cleaned set of the object has -/
theorem pair_sound {scs : List Scenario} {l : List (Key × Val)} (hp : PlainObject l) {sets : List (Option Scenario × Val)}
    (h : objectsWithout scs (.dict l) = .ok sets) {s : Option Scenario × Val} (hs : s ∈ sets) :
    ∃ m, cleanOf s.2 = .ok m ∧ ∀ σ, Agrees s.1 σ → ∀ n, (HasProp σ l n → Key.str n ∈ m.map Prod.fst) ∧
      ((∀ c, ObjectCond l c → Decided s.1 c) → Key.str n ∈ m.map Prod.fst → HasProp σ l n) := by
  obtain ⟨sets', h1, h2⟩ := objectsWithout_keys hp.noIf (plain_ne hp) hp.proper scs
  rw [h] at h1
  injection h1 with h1
  subst h1
  rcases (h2 s).1 hs with ⟨_, rfl⟩ | ⟨sc, hsc, m, hm, hne, rfl⟩
  · obtain ⟨m', hc, hk⟩ := cleanOf_keys l
    refine ⟨m', hc, fun σ _ n => ⟨?_, ?_⟩⟩
    · rintro ⟨v, hv, hr⟩
      exact (hk _).2 ⟨v, hv, fun h => hr (by rw [h]; exact .here)⟩
    · intro hd hkm
      obtain ⟨v, hv, hnv⟩ := (hk _).1 hkm
      refine ⟨v, hv, ?_⟩
      intro hr
      generalize hw : v = w at hr
      cases hr with
      | here => exact hnv hw
      | left => subst hw; obtain ⟨_, _, h, _⟩ := hd _ ⟨_, hv, .here⟩; cases h
      | right => subst hw; obtain ⟨_, _, h, _⟩ := hd _ ⟨_, hv, .here⟩; cases h
  · obtain ⟨m0, hm0, hkeys⟩ := valueFromScenario_keys sc hp.noIf hp.proper
    rw [hm] at hm0
    injection hm0 with hm0
    injection hm0 with hm0
    subst hm0
    obtain ⟨m', hc, hk⟩ := cleanOf_keys m
    have hsame : ∀ k, k ∈ m'.map Prod.fst ↔ k ∈ m.map Prod.fst := by
      intro k
      rw [hk, List.mem_map]
      constructor
      · rintro ⟨v, hv, _⟩; exact ⟨_, hv, rfl⟩
      · rintro ⟨⟨k', v⟩, hv, rfl⟩; exact ⟨v, hv, noValue_of_scenario hp.noIf hm _ hv⟩
    refine ⟨m', hc, fun σ hσ n => ⟨fun hh => ?_, fun hd hkm => ?_⟩⟩
    · exact (hsame _).2 (scenario_keeps hp.proper hkeys (agrees_some hσ) hh)
    · refine (scenario_hasProp hp.proper hkeys (agrees_some hσ) ?_).1 ((hsame _).1 hkm)
      intro v hv c hr
      exact decided_fn (hd c ⟨_, hv, hr⟩)

theorem pairs_sound {scs : List Scenario} {l : List (Key × Val)} (hp : PlainObject l) {sets : List (Option Scenario × Val)}
    (h : objectsWithout scs (.dict l) = .ok sets) {present : Bool} {table : List (String × List String)} {report : Key → Path}
    {res : List PairReport} (hr : pairSets present table report sets = .ok res) {r : PairReport} (hm : r ∈ res) :
    ∃ s others, dlookup s table = some others ∧ r.other ∈ others ∧ r.prop = .str s ∧ r.path = report (.str s) ∧
      ((∀ c, ObjectCond l c → Decided r.scenario c) → ∀ σ, Agrees r.scenario σ →
        HasProp σ l s ∧ (HasProp σ l r.other ↔ present = true)) := by
  obtain ⟨st, hst, l0, h0, hr0⟩ := (mem_collectM hr).1 hm
  obtain ⟨m, hc, hprop⟩ := pair_sound hp h hst
  simp only [hc] at h0
  injection h0 with h0
  subst h0
  obtain ⟨s, others, hk, hd, ho, hpr, he⟩ := mem_pairSet.1 hr0
  refine ⟨s, others, hd, ho, by rw [he], by rw [he], ?_⟩
  have hsc : r.scenario = st.1 := by rw [he]
  rw [hsc]
  intro hdec σ hσ
  refine ⟨(hprop σ hσ s).2 hdec hk, ?_⟩
  rw [← hpr, dhas_iff]
  exact ⟨(hprop σ hσ _).1, (hprop σ hσ _).2 hdec⟩

theorem pairs_complete {H : Val → String} {fuel : Nat} {enum : String → List String → List String}
    {order : List String → List String} {t : List (Key × Val)} {tb : CondTable} {b : String → Bool} {l : List (Key × Val)}
    (hp : PlainObject l) (ho : SetOrder order) (hd : Deployment H fuel enum t tb (ObjectCond l) b)
    {sets : List (Option Scenario × Val)} (h : objectWithoutConditions enum order tb (.dict l) = .ok sets)
    {present : Bool} {table : List (String × List String)} {report : Key → Path}
    {res : List PairReport} (hr : pairSets present table report sets = .ok res) {s other : String} {others : List String}
    (ht : dlookup s table = some others) (hoth : other ∈ others) (h1 : HasProp b l s)
    (h2 : HasProp b l other ↔ present = true) :
    ∃ r ∈ res, r.path = report (.str s) ∧ r.prop = .str s ∧ r.other = other ∧ Agrees r.scenario b := by
  unfold objectWithoutConditions at h
  cases hs : getScenarios enum tb ((order (objectConds (.dict l))).map Key.str) with
  | error e => rw [hs] at h; cases h
  | ok scs =>
    rw [hs] at h
    obtain ⟨st, hst, hag, hdec⟩ := sets_complete hd ho (fun c => mem_objectConds hp.noIf) hs hp h (.inl ⟨s, h1⟩)
    obtain ⟨m, hc, hprop⟩ := pair_sound hp h hst
    refine ⟨⟨report (.str s), .str s, other, st.1⟩, (mem_collectM hr).2
      ⟨st, hst, pairSet present table report st.1 m, by simp only [hc], ?_⟩, rfl, rfl, rfl, hag⟩
    refine mem_pairSet.2 ⟨s, others, (hprop b hag s).1 h1, ht, hoth, ?_, rfl⟩
    have : dhas (Key.str other) m = true ↔ present = true := by
      rw [dhas_iff, ← h2]
      exact ⟨(hprop b hag _).2 hdec, (hprop b hag _).1⟩
    exact Bool.eq_iff_iff.2 this

/-- **C62** E2520, what is reported: two properties of which the first excludes the second and which the object has both
under the scenario. The properties are an object, not an `Fn::If`. -/
theorem C62_exclusive_sound_partial {enum : String → List String → List String} {order : List String → List String}
    {tb : CondTable} {l : List (Key × Val)} {table : List (String × List String)} {path : Path} {res : List PairReport}
    (hp : PlainObject l) (h : exclusiveCheck enum order tb (.dict l) table path = .ok res) {r : PairReport} (hm : r ∈ res) :
    ∃ s others, dlookup s table = some others ∧ r.other ∈ others ∧ r.prop = .str s ∧ r.path = path ++ [.str s] ∧
      ((∀ c, ObjectCond l c → Decided r.scenario c) → ∀ σ, Agrees r.scenario σ → HasProp σ l s ∧ HasProp σ l r.other) := by
  unfold exclusiveCheck at h
  unfold objectWithoutConditions at h
  cases hs : getScenarios enum tb ((order (objectConds (.dict l))).map Key.str) with
  | error e => rw [hs] at h; cases h
  | ok scs =>
    rw [hs] at h
    simp only at h
    cases ho : objectsWithout scs (.dict l) with
    | error e => rw [ho] at h; cases h
    | ok sets =>
      rw [ho] at h
      simpa using pairs_sound hp ho h hm

/-- **C62** E2520: whatever the deployment, two properties the object has both are reported if one excludes the other. -/
theorem C62_exclusive_complete_partial {H : Val → String} {fuel : Nat} {enum : String → List String → List String}
    {order : List String → List String} {t : List (Key × Val)} {tb : CondTable} {b : String → Bool} {l : List (Key × Val)}
    {table : List (String × List String)} {path : Path} {res : List PairReport}
    (ho : SetOrder order) (hp : PlainObject l) (h : exclusiveCheck enum order tb (.dict l) table path = .ok res)
    (hd : Deployment H fuel enum t tb (ObjectCond l) b) {s other : String} {others : List String}
    (ht : dlookup s table = some others) (hoth : other ∈ others) (h1 : HasProp b l s) (h2 : HasProp b l other) :
    ∃ r ∈ res, r.path = path ++ [.str s] ∧ r.prop = .str s ∧ r.other = other ∧ Agrees r.scenario b := by
  unfold exclusiveCheck at h
  cases hs : objectWithoutConditions enum order tb (.dict l) with
  | error e => rw [hs] at h; cases h
  | ok sets =>
    rw [hs] at h
    exact pairs_complete hp ho hd hs h ht hoth h1 (by simp [h2])

/-- **C62** E2521, what is reported: a property the object has under the scenario and one it requires and that is
missing. The properties are an object, not an `Fn::If`. -/
theorem C62_inclusive_sound_partial {enum : String → List String → List String} {order : List String → List String}
    {tb : CondTable} {l : List (Key × Val)} {table : List (String × List String)} {path : Path} {res : List PairReport}
    (hp : PlainObject l) (h : inclusiveCheck enum order tb (.dict l) table path = .ok res) {r : PairReport} (hm : r ∈ res) :
    ∃ s others, dlookup s table = some others ∧ r.other ∈ others ∧ r.prop = .str s ∧ r.path = path ∧
      ((∀ c, ObjectCond l c → Decided r.scenario c) → ∀ σ, Agrees r.scenario σ → HasProp σ l s ∧ ¬ HasProp σ l r.other) := by
  unfold inclusiveCheck at h
  split at h
  · injection h with h; subst h; cases hm
  unfold objectWithoutConditions at h
  cases hs : getScenarios enum tb ((order (objectConds (.dict l))).map Key.str) with
  | error e => rw [hs] at h; cases h
  | ok scs =>
    rw [hs] at h
    simp only at h
    cases ho : objectsWithout scs (.dict l) with
    | error e => rw [ho] at h; cases h
    | ok sets =>
      rw [ho] at h
      simpa using pairs_sound hp ho h hm

/-- **C62** E2521: whatever the deployment, a property the object has is reported if it requires one that is missing. -/
theorem C62_inclusive_complete_partial {H : Val → String} {fuel : Nat} {enum : String → List String → List String}
    {order : List String → List String} {t : List (Key × Val)} {tb : CondTable} {b : String → Bool} {l : List (Key × Val)}
    {table : List (String × List String)} {path : Path} {res : List PairReport}
    (ho : SetOrder order) (hp : PlainObject l) (h : inclusiveCheck enum order tb (.dict l) table path = .ok res)
    (hd : Deployment H fuel enum t tb (ObjectCond l) b) {s other : String} {others : List String}
    (ht : dlookup s table = some others) (hoth : other ∈ others) (h1 : HasProp b l s) (h2 : ¬ HasProp b l other) :
    ∃ r ∈ res, r.path = path ∧ r.prop = .str s ∧ r.other = other ∧ Agrees r.scenario b := by
  unfold inclusiveCheck at h
  rw [if_neg (by
    obtain ⟨v, hv, _⟩ := h1
    cases l with
    | nil => cases hv
    | cons => simp [Val.truthy])] at h
  cases hs : objectWithoutConditions enum order tb (.dict l) with
  | error e => rw [hs] at h; cases h
  | ok sets =>
    rw [hs] at h
    exact pairs_complete hp ho hd hs h ht hoth h1 (by simp [h2])

/-- **C62** in full for E2521: the properties may themselves be given by an `Fn::If`. -/
def C62_statement : Prop := ∀ (H : Val → String) (fuel : Nat) (enum : String → List String → List String)
  (order : List String → List String) (t : List (Key × Val)) (tb : CondTable) (b : String → Bool) (kvs : List (Key × Val))
  (table : List (String × List String)) (path : Path) (res : List PairReport) (q : Path) (l : List (Key × Val))
  (s other : String) (others : List String),
  SetOrder order → (Val.dict kvs).WF → PlainBranches (.dict kvs) → inclusiveCheck enum order tb (.dict kvs) table path = .ok res →
  Chosen b (.dict kvs) q (.dict l) → Deployment H fuel enum t tb (fun c => Asks c (.dict kvs) ∨ ObjectCond l c) b →
  dlookup s table = some others → other ∈ others → HasProp b l s → ¬ HasProp b l other →
  ∃ r ∈ res, r.prop = .str s ∧ r.other = other

theorem nodup_eraseDups : ∀ (n : Nat) (l : List String), l.length ≤ n → l.eraseDups.Nodup
  | _, [], _ => by simp
  | 0, _ :: _, h => by simp at h
  | n + 1, a :: as, h => by
    rw [List.eraseDups_cons, List.nodup_cons]
    have hlen : (as.filter fun b => !b == a).length ≤ n :=
      Nat.le_trans (List.length_filter_le _ _) (by simp at h; omega)
    exact ⟨by simp, nodup_eraseDups n _ hlen⟩

theorem setOrder_eraseDups : SetOrder List.eraseDups := fun l => ⟨nodup_eraseDups _ l (Nat.le_refl _), fun c => by simp⟩

/-- a deployment of the witness template with the parameter `s` -/
theorem exOne_deployment {s : String} (hs : s = "a" ∨ s = "b") {P : String → Prop} {b : String → Bool}
    (hP : ∀ c, P c → c = "C1") (hb : b "C1" = (s == "a")) :
    Deployment exHash 5 (fun _ s => s) exOne (Conditions.init exHash 5 (.dict exOne)).1 P b where
  enumerates := fun _ _ _ => Iff.rfl
  wf := exOne_wf
  noHash := exOne_noLit
  init := Prod.ext rfl (by decide)
  allowed := by
    intro p vals ha
    obtain ⟨_, rfl⟩ := exOne_allows ha
    simp [PlainLit]
  values := by
    refine ⟨fun _ => s, fun _ _ _ => rfl, ?_, ?_⟩
    · intro p vals ha _
      obtain ⟨_, rfl⟩ := exOne_allows ha
      rcases hs with rfl | rfl
      · exact ⟨.str "a", by simp, rfl⟩
      · exact ⟨.str "b", by simp, rfl⟩
    · intro c hc
      obtain rfl := hP c hc
      exact ⟨_, rfl, hb ▸ exOne_evals s⟩
  small := by
    intro req hn hm
    left
    match req, hn, hm with
    | [], _, _ => simp
    | [_], _, _ => simp
    | x :: y :: _, hn, hm =>
      have hx := hP x ((hm x).1 (by simp))
      have hy := hP y ((hm y).1 (by simp))
      simp [hx, hy] at hn

def exOneTable : CondTable := (Conditions.init exHash 5 (.dict exOne)).1

/-- one property of the group under a condition, and another property -/
def exSet : List (Key × Val) := [(.str "A", fnIf (.str "C1") (.int 1) noValue), (.str "D", .int 2)]

theorem exSet_plain : PlainObject exSet := by
  constructor
  · decide
  · decide
  · intro kv h
    simp only [exSet, List.mem_cons, List.not_mem_nil, or_false] at h
    rcases h with rfl | rfl
    · simp [fnIf, noValue, Proper, ProperIf]
    · simp [Proper]

theorem exSet_wf : (Val.dict exSet).WF := by simp [exSet, fnIf, noValue, Val.WF, Val.WFDict, Val.WFList]

theorem leaf_of_two {k1 k2 : Key} {v1 v2 : Val} {r : List (Key × Val)} {q : Path} {u : Val}
    (h : Leaf (.dict ((k1, v1) :: (k2, v2) :: r)) q u) : u = .dict ((k1, v1) :: (k2, v2) :: r) := by
  generalize hw : Val.dict ((k1, v1) :: (k2, v2) :: r) = w at h
  cases h with
  | here => rfl
  | left => simp [fnIf] at hw
  | right => simp [fnIf] at hw

theorem exSet_branches : PlainBranches (.dict exSet) := by
  intro q u h
  exact ⟨exSet, leaf_of_two h, exSet_plain⟩

theorem exSet_groups : GoodGroups [["A", "B"]] := by
  intro g hg
  simp only [List.mem_cons, List.not_mem_nil, or_false] at hg
  subst hg
  decide

theorem exSet_notIf : ¬ IsIf (.dict exSet) := by
  rintro ⟨c, h⟩
  simp [exSet, fnIf] at h

theorem exSet_reached {c : String} {v : Val} (h : Asks c v)
    (hv : v = fnIf (.str "C1") (.int 1) noValue ∨ v = .int 2) : c = "C1" := by
  cases h with
  | here => simp [fnIf] at hv; exact hv.1
  | left h => simp [fnIf] at hv; obtain ⟨_, rfl, _⟩ := hv; cases h
  | right h =>
    simp only [fnIf] at hv
    rcases hv with hv | hv
    · injection hv with hv
      simp at hv
      obtain ⟨_, _, rfl⟩ := hv
      generalize hw : noValue = w at h
      cases h <;> simp [noValue, fnIf] at hw
    · cases hv
  | item => simp [fnIf] at hv

theorem exSet_cond {c : String} (h : ObjectCond exSet c) : c = "C1" := by
  obtain ⟨kv, hkv, hr⟩ := h
  simp only [exSet, List.mem_cons, List.not_mem_nil, or_false] at hkv
  rcases hkv with rfl | rfl
  · exact exSet_reached hr (.inl rfl)
  · exact exSet_reached hr (.inr rfl)

theorem exSet_groupCond {g : List String} {c : String} (h : GroupCond exSet g c) : c = "C1" := by
  obtain ⟨n, _, v, hv, hr⟩ := h
  exact exSet_cond ⟨_, hv, hr⟩

theorem removed_branch {σ : String → Bool} {c : String} {a b : Val} (h : σ c = false) (hb : Removed σ b) :
    Removed σ (fnIf (.str c) a b) := .right h hb

theorem exSet_hasD (σ : String → Bool) : HasProp σ exSet "D" := by
  refine ⟨.int 2, by simp [exSet], ?_⟩
  intro h
  cases h

theorem exSet_noA {σ : String → Bool} (h : σ "C1" = false) : ¬ HasProp σ exSet "A" := by
  rintro ⟨v, hv, hr⟩
  simp [exSet] at hv
  subst hv
  exact hr (.right h .here)

theorem exSet_hasA {σ : String → Bool} (h : σ "C1" = true) : HasProp σ exSet "A" := by
  refine ⟨_, List.mem_cons_self, ?_⟩
  intro hr
  generalize hw : fnIf (.str "C1") (.int 1) noValue = w at hr
  cases hr with
  | here => simp [fnIf, noValue] at hw
  | left _ h2 => simp [fnIf] at hw; obtain ⟨_, rfl, _⟩ := hw; cases h2
  | right h1 => simp [fnIf] at hw; obtain ⟨rfl, _⟩ := hw; rw [h] at h1; cases h1

theorem exSet_noB (σ : String → Bool) : ¬ HasProp σ exSet "B" := by
  rintro ⟨v, hv, _⟩
  simp [exSet] at hv

def exSetReport (names : List String) : SetReport :=
  ⟨[], names, some [(.str "C1", some false)], []⟩

theorem exSet_atLeastOne : atLeastOneCheck (fun _ s => s) List.eraseDups exOneTable (.dict exSet) [["A", "B"]] [] =
    .ok [exSetReport ["A", "B"]] := rfl

theorem exSet_onlyOne : onlyOneCheck (fun _ s => s) List.eraseDups exOneTable (.dict exSet) [["A", "B"]] [] =
    .ok [exSetReport ["A", "B"]] := rfl

/-- the hypotheses of `C61_at_least_one_sound` are met -/
example : exSetReport ["A", "B"] ∈ [exSetReport ["A", "B"]] ∧ ∃ q l, Leaf (.dict exSet) q (.dict l) ∧
    ∀ σ, Agrees (exSetReport ["A", "B"]).scenario σ → ∀ n ∈ ["A", "B"], ¬ HasProp σ l n := by
  obtain ⟨_, _, q, l, h1, _, h2⟩ := C61_at_least_one_sound exSet_wf exSet_branches exSet_groups exSet_atLeastOne
    List.mem_cons_self
  exact ⟨List.mem_cons_self, q, l, h1, h2⟩

/-- the hypotheses of `C61_at_least_one_complete_partial` are met: the parameter is "b" -/
example : ∃ r ∈ [exSetReport ["A", "B"]], r.path = [] ∧ r.names = ["A", "B"] ∧ r.place = [] ++ [] ∧
    Agrees r.scenario (fun _ => false) :=
  C61_at_least_one_complete_partial setOrder_eraseDups exSet_wf exSet_branches exSet_groups exSet_atLeastOne
    (by simp) (.here exSet_notIf (by decide)) (exOne_deployment (.inr rfl) (fun _ => exSet_groupCond) (by decide))
    (by
      intro n hn
      simp only [List.mem_cons, List.not_mem_nil, or_false] at hn
      rcases hn with rfl | rfl
      · exact exSet_noA rfl
      · exact exSet_noB _)
    (.inl ⟨"D", exSet_hasD _⟩)

/-- the hypotheses of `C61_only_one_sound_partial` are met -/
example : ∃ q l, Leaf (.dict exSet) q (.dict l) ∧
    ((∀ c, GroupCond l ["A", "B"] c → Decided (exSetReport ["A", "B"]).scenario c) →
      ∀ σ, Agrees (exSetReport ["A", "B"]).scenario σ → ¬ ExactlyOne σ l ["A", "B"]) := by
  obtain ⟨_, _, q, l, h1, _, h2⟩ := C61_only_one_sound_partial exSet_wf exSet_branches exSet_groups exSet_onlyOne
    List.mem_cons_self
  exact ⟨q, l, h1, h2⟩

/-- the hypotheses of `C61_only_one_complete_partial` are met -/
example : ∃ r ∈ [exSetReport ["A", "B"]], r.path = [] ∧ r.names = ["A", "B"] ∧ r.place = [] ++ [] ∧
    Agrees r.scenario (fun _ => false) :=
  C61_only_one_complete_partial setOrder_eraseDups exSet_wf exSet_branches exSet_groups exSet_onlyOne
    (by simp) (.here exSet_notIf (by decide)) (exOne_deployment (.inr rfl) (fun _ => exSet_groupCond) (by decide))
    (by
      rintro ⟨n, hn, hh, _⟩
      simp only [List.mem_cons, List.not_mem_nil, or_false] at hn
      rcases hn with rfl | rfl
      · exact exSet_noA rfl hh
      · exact exSet_noB _ hh)
    (.inl ⟨"D", exSet_hasD _⟩)

/-- one property under a condition and no other -/
def exSetOnly : List (Key × Val) := [(.str "A", fnIf (.str "C1") (.int 1) noValue)]

theorem exSetOnly_notIf : ¬ IsIf (.dict exSetOnly) := by
  rintro ⟨c, h⟩
  simp [exSetOnly, fnIf] at h

theorem exSetOnly_plain : PlainObject exSetOnly := by
  refine ⟨by decide, by decide, ?_⟩
  intro kv h
  exact exSet_plain.proper kv (by simp [exSetOnly] at h; simp [exSet, h])

/-- **C61** does not hold in full: if the condition removes the only property, the object is left empty, and E2522 skips
the scenario (`if result_obj:` in `get_object_without_conditions`). `{A: {Fn::If: [C1, 1, AWS::NoValue]}}` is accepted
though neither A nor B is there when C1 is false. -/
theorem C61_empty_violated : ¬ C61_statement := by
  intro h
  obtain ⟨r, hr, _⟩ := h exHash 5 (fun _ s => s) List.eraseDups exOne exOneTable (fun _ => false) exSetOnly [["A", "B"]] [] []
    [] exSetOnly ["A", "B"] setOrder_eraseDups
    (by simp [exSetOnly, fnIf, noValue, Val.WF, Val.WFDict, Val.WFList])
    (by
      intro q u hl
      generalize hw : Val.dict exSetOnly = w at hl
      cases hl with
      | here => subst hw; exact ⟨_, rfl, exSetOnly_plain⟩
      | left => simp [exSetOnly, fnIf] at hw
      | right => simp [exSetOnly, fnIf] at hw)
    exSet_groups rfl (by simp) (.here exSetOnly_notIf)
    (exOne_deployment (.inr rfl) (by
      rintro c ⟨n, _, v, hv, hr⟩
      simp [exSetOnly] at hv
      exact exSet_reached hr (.inl hv.2)) (by decide))
    (by
      rintro n _ ⟨v, hv, hr⟩
      simp [exSetOnly] at hv
      rw [hv.2] at hr
      exact hr (.right rfl .here))
  cases hr

/-- **C61** E2523 reports an object that has exactly one of the properties whatever the conditions: the condition is not
defined, there are no scenarios, and both properties count. -/
theorem C61_only_one_undefined_violated : ∃ (l : List (Key × Val)) (r : SetReport), PlainObject l ∧
    onlyOneCheck (fun _ s => s) List.eraseDups exOneTable (.dict l) [["A", "B"]] [] = .ok [r] ∧
    ∀ σ, ExactlyOne σ l ["A", "B"] := by
  refine ⟨[(.str "A", fnIf (.str "C9") (.int 1) noValue), (.str "B", fnIf (.str "C9") noValue (.int 1))],
    ⟨[], ["A", "B"], none, []⟩, ⟨by decide, by decide, ?_⟩, rfl, ?_⟩
  · intro kv h
    simp only [List.mem_cons, List.not_mem_nil, or_false] at h
    rcases h with rfl | rfl <;> simp [fnIf, noValue, Proper, ProperIf]
  · intro σ
    cases hc : σ "C9" with
    | true =>
      refine ⟨"A", by simp, ⟨_, List.mem_cons_self, ?_⟩, ?_⟩
      · rw [removed_fnIf]
        rintro (⟨_, h⟩ | ⟨h, _⟩)
        · cases h
        · rw [hc] at h; cases h
      · rintro m _ ⟨v, hv, hr⟩
        simp at hv
        rcases hv with ⟨rfl, _⟩ | ⟨rfl, rfl⟩
        · rfl
        · exact absurd (.left hc .here) hr
    | false =>
      refine ⟨"B", by simp, ⟨_, List.mem_cons_of_mem _ List.mem_cons_self, ?_⟩, ?_⟩
      · rw [removed_fnIf]
        rintro (⟨h, _⟩ | ⟨_, h⟩)
        · rw [hc] at h; cases h
        · cases h
      · rintro m _ ⟨v, hv, hr⟩
        simp at hv
        rcases hv with ⟨rfl, rfl⟩ | ⟨rfl, _⟩
        · exact absurd (.right hc .here) hr
        · rfl

def exExclusive : PairReport := ⟨[.str "A"], .str "A", "D", some [(.str "C1", some true)]⟩
def exInclusive : PairReport := ⟨[], .str "D", "A", some [(.str "C1", some false)]⟩

theorem exSet_exclusive : exclusiveCheck (fun _ s => s) List.eraseDups exOneTable (.dict exSet) [("A", ["D"])] [] =
    .ok [exExclusive] := rfl

theorem exSet_inclusive : inclusiveCheck (fun _ s => s) List.eraseDups exOneTable (.dict exSet) [("D", ["A"])] [] =
    .ok [exInclusive] := rfl

theorem exSet_decided {x : Bool} {c : String} (h : ObjectCond exSet c) : Decided (some [(.str "C1", some x)]) c := by
  obtain rfl := exSet_cond h
  exact ⟨_, x, rfl, rfl⟩

/-- the hypotheses of the four theorems of C62 are met -/
example : (∀ σ, Agrees exExclusive.scenario σ → HasProp σ exSet "A" ∧ HasProp σ exSet "D") := by
  obtain ⟨s, others, _, _, h2, _, h3⟩ := C62_exclusive_sound_partial exSet_plain exSet_exclusive List.mem_cons_self
  cases h2
  exact h3 fun c => exSet_decided

example : (∀ σ, Agrees exInclusive.scenario σ → HasProp σ exSet "D" ∧ ¬ HasProp σ exSet "A") := by
  obtain ⟨s, others, _, _, h2, _, h3⟩ := C62_inclusive_sound_partial exSet_plain exSet_inclusive List.mem_cons_self
  cases h2
  exact h3 fun c => exSet_decided

example : ∃ r ∈ [exExclusive], r.path = [] ++ [.str "A"] ∧ r.prop = .str "A" ∧ r.other = "D" ∧
    Agrees r.scenario (fun _ => true) :=
  C62_exclusive_complete_partial setOrder_eraseDups exSet_plain exSet_exclusive
    (exOne_deployment (.inl rfl) (fun _ => exSet_cond) (by decide)) rfl (by simp) (exSet_hasA rfl) (exSet_hasD _)

example : ∃ r ∈ [exInclusive], r.path = [] ∧ r.prop = .str "D" ∧ r.other = "A" ∧
    Agrees r.scenario (fun _ => false) :=
  C62_inclusive_complete_partial setOrder_eraseDups exSet_plain exSet_inclusive
    (exOne_deployment (.inr rfl) (fun _ => exSet_cond) (by decide)) rfl (by simp) (exSet_hasD _) (exSet_noA rfl)

/-- the object of the first branch -/
def exInner : List (Key × Val) := [(.str "A", .int 1), (.str "B", fnIf (.str "C1") noValue (.int 1))]

/-- properties given by an `Fn::If` with another one inside -/
def exRootIf : List (Key × Val) := [(.str "Fn::If", .list [.str "C1", .dict exInner, .dict [(.str "D", .int 1)]])]

theorem exInner_plain : PlainObject exInner := by
  refine ⟨by decide, by decide, ?_⟩
  intro kv h
  simp only [exInner, List.mem_cons, List.not_mem_nil, or_false] at h
  rcases h with rfl | rfl <;> simp [fnIf, noValue, Proper, ProperIf]

theorem exInner_notIf : ¬ IsIf (.dict exInner) := by
  rintro ⟨c, h⟩
  simp [exInner, fnIf] at h

theorem exInner_noB {σ : String → Bool} (h : σ "C1" = true) : ¬ HasProp σ exInner "B" := by
  rintro ⟨v, hv, hr⟩
  simp [exInner] at hv
  subst hv
  exact hr (.left h .here)

theorem exInner_hasA (σ : String → Bool) : HasProp σ exInner "A" := by
  refine ⟨_, List.mem_cons_self, ?_⟩
  intro h
  cases h

theorem exRootIf_cond {c : String} (h : Asks c (.dict exRootIf) ∨ ObjectCond exInner c) : c = "C1" := by
  have leaf : ∀ l : List (Key × Val), (∀ d x y, Val.dict l ≠ fnIf (.str d) x y) → ¬ Asks c (.dict l) := by
    intro l hl hr
    generalize hw : Val.dict l = w at hr
    cases hr with
    | here => exact hl _ _ _ hw
    | left => exact hl _ _ _ hw
    | right => exact hl _ _ _ hw
    | item => cases hw
  rcases h with h | ⟨kv, hkv, hr⟩
  · generalize hw : Val.dict exRootIf = w at h
    cases h with
    | here => simp [exRootIf, fnIf] at hw; exact hw.1.symm
    | left h => simp [exRootIf, fnIf] at hw; obtain ⟨_, rfl, _⟩ := hw; exact absurd h (leaf _ (by simp [exInner, fnIf]))
    | right h => simp [exRootIf, fnIf] at hw; obtain ⟨_, _, rfl⟩ := hw; exact absurd h (leaf _ (by simp [fnIf]))
    | item => cases hw
  · simp only [exInner, List.mem_cons, List.not_mem_nil, or_false] at hkv
    rcases hkv with rfl | rfl
    · cases hr
    · generalize hw : (Key.str "B", fnIf (.str "C1") noValue (.int 1)).2 = w at hr
      cases hr with
      | here => simp [fnIf] at hw; exact hw.1.symm
      | left h => simp [fnIf] at hw; obtain ⟨_, rfl, _⟩ := hw; exact absurd h (leaf _ (by simp [fnIf]))
      | right h => simp [fnIf] at hw; obtain ⟨_, _, rfl⟩ := hw; cases h
      | item => simp [fnIf] at hw

/-- **C62** does not hold in full: if the properties are given by an `Fn::If`, the branch is taken as it is and the
`Fn::If`s of its properties are not resolved. With C1 true the object has A and lacks B, which A requires; nothing is
reported. -/
theorem C62_root_if_violated : ¬ C62_statement := by
  intro h
  obtain ⟨r, hr, _⟩ := h exHash 5 (fun _ s => s) List.eraseDups exOne exOneTable (fun _ => true) exRootIf [("A", ["B"])] [] []
    [.str "Fn::If", .int 1] exInner "A" "B" ["B"] setOrder_eraseDups
    (by simp [exRootIf, exInner, fnIf, noValue, Val.WF, Val.WFDict, Val.WFList])
    (by
      intro q u hl
      generalize hw : Val.dict exRootIf = w at hl
      cases hl with
      | here hn => exact absurd ⟨_, hw.symm⟩ hn
      | left hl =>
        simp [exRootIf, fnIf] at hw
        obtain ⟨_, rfl, _⟩ := hw
        exact ⟨_, leaf_of_two hl, exInner_plain⟩
      | right hl =>
        simp [exRootIf, fnIf] at hw
        obtain ⟨_, _, rfl⟩ := hw
        generalize hw : Val.dict [(Key.str "D", Val.int 1)] = w at hl
        cases hl with
        | here => subst hw; exact ⟨_, rfl, by decide, by decide, by simp [Proper]⟩
        | left => simp [fnIf] at hw
        | right => simp [fnIf] at hw)
    rfl (.left rfl (.here exInner_notIf))
    (exOne_deployment (.inl rfl) (fun _ => exRootIf_cond) (by decide)) rfl (by simp) (exInner_hasA _) (exInner_noB rfl)
  cases hr

/-- **C62** E2520 on the same properties reports A and B as being together, which no deployment has. -/
theorem C62_root_if_unsound_violated : ∃ r, exclusiveCheck (fun _ s => s) List.eraseDups exOneTable (.dict exRootIf)
      [("A", ["B"])] [] = .ok [r] ∧ r.prop = .str "A" ∧ r.other = "B" ∧ r.scenario = some [(.str "C1", some true)] ∧
    ∀ σ q l, Agrees r.scenario σ → Chosen σ (.dict exRootIf) q (.dict l) → ¬ HasProp σ l "B" := by
  refine ⟨⟨[.str "A"], .str "A", "B", some [(.str "C1", some true)]⟩, rfl, rfl, rfl, rfl, ?_⟩
  intro σ q l hσ hc
  have h1 : σ "C1" = true := hσ _ rfl "C1" true rfl
  generalize hw : Val.dict exRootIf = w at hc
  cases hc with
  | here hn => exact absurd ⟨_, hw.symm⟩ hn
  | left _ hc =>
    simp [exRootIf, fnIf] at hw
    obtain ⟨_, rfl, _⟩ := hw
    generalize hw : Val.dict exInner = w at hc
    generalize hu : Val.dict l = u at hc
    cases hc with
    | here =>
      rw [← hw] at hu
      injection hu with hu
      rw [hu]
      exact exInner_noB h1
    | left => simp [exInner, fnIf] at hw
    | right => simp [exInner, fnIf] at hw
  | right h2 =>
    simp [exRootIf, fnIf] at hw
    rw [← hw.1, h1] at h2
    cases h2

/-- **C62** a branch that is not an object raises an error. -/
theorem C62_text_branch_violated : ∃ e, exclusiveCheck (fun _ s => s) List.eraseDups exOneTable
    (.dict [(.str "Fn::If", .list [.str "C1", .str "x", .dict []])]) [("A", ["B"])] [] = .error e := ⟨_, rfl⟩

end CfnLint
