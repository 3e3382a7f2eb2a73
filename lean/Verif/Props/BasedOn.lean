import Verif.Lemmas.BasedOn
import Verif.Lemmas.Finds
/-
C93: E3017 and E3018 report a property that is required or unwanted because of the value of another property.
-/
namespace CfnLint
open Spec

/-- the specification has lists of names of properties, and of types with one attribute each -/
def GoodBasedRow (k : String) (s : BasedOn) : Prop := (s.getAtts.map Prod.fst).Nodup ∧ "Fn::If" ∉ k :: s.names

theorem mem_basedNames {present : Bool} {path : Path} {k : String} {names : List String} {sc : Option Scenario} {m : List (Key × Val)} :
    ∃ l, basedNames present path k names sc (.dict m) = .ok l ∧
      ∀ r, r ∈ l ↔ ∃ n ∈ names, dhas (Key.str n) m = present ∧ r = ⟨path, k, n, sc⟩ := by
  unfold basedNames
  refine collectM_spec (P := fun n r => dhas (Key.str n) m = present ∧ r = (⟨path, k, n, sc⟩ : BasedReport)) ?_
  intro n _
  refine ⟨_, rfl, fun r => ?_⟩
  by_cases h : dhas (Key.str n) m = present <;> simp [h]

/-- the findings are those of the sets in which the property triggers -/
theorem mem_basedCheck {enum : String → List String → List String} {order : List String → List String} {tb : CondTable} {t : Val}
    {present : Bool} {specs : List (String × List BasedOn)} {kvs : List (Key × Val)} {path : Path} {res : List BasedReport}
    (h : basedCheck enum order tb t present specs (.dict kvs) path = .ok res) (r : BasedReport) :
    r ∈ res ↔ ∃ rows, (r.prop, rows) ∈ specs ∧ ∃ s ∈ rows, r.other ∈ s.names ∧ r.path = path ∧ ∃ sets,
      objectWithoutNamed enum order tb (.dict kvs) (r.prop :: s.names) = .ok sets ∧ ∃ l,
        collectM (basedSet t present path r.prop s) sets = .ok l ∧ r ∈ l := by
  unfold basedCheck at h
  rw [if_neg (by simp)] at h
  rw [mem_collectM h]
  constructor
  · rintro ⟨⟨k, rows⟩, hk, l, hl, hr⟩
    obtain ⟨s, hs, l1, hl1, hr1⟩ := (mem_collectM hl).1 hr
    simp only at hl1
    unfold basedRow at hl1
    split at hl1
    · injection hl1 with e; subst e; cases hr1
    · split at hl1
      · cases hl1
      · rename_i sets hsets
        obtain ⟨set, hset, l2, hl2, hr2⟩ := (mem_collectM hl1).1 hr1
        have hl2' := hl2
        unfold basedSet at hl2
        split at hl2
        · cases hl2
        · split at hl2
          · cases hl2
          · injection hl2 with e; subst e; cases hr2
          · unfold basedNames at hl2
            obtain ⟨n, hn, l3, hl3, hr3⟩ := (mem_collectM hl2).1 hr2
            split at hl3
            · cases hl3
            · injection hl3 with e
              subst e
              split at hr3
              · simp only [List.mem_singleton] at hr3
                subst hr3
                exact ⟨rows, hk, s, hs, hn, rfl, sets, hsets, l1, hl1, hr1⟩
              · cases hr3
  · rintro ⟨rows, hk, s, hs, hn, _, sets, hsets, l, hl, hr⟩
    obtain ⟨l1, hl1⟩ := collectM_each h _ hk
    refine ⟨_, hk, l1, hl1, ?_⟩
    rw [mem_collectM hl1]
    refine ⟨s, hs, l, ?_, hr⟩
    simp only
    unfold basedRow
    rw [if_neg (by intro e; rw [e] at hn; cases hn), hsets]
    exact hl

theorem mem_basedSet {t : Val} {present : Bool} {path : Path} {k : String} {s : BasedOn} {sc : Option Scenario} {m : List (Key × Val)}
    {l : List BasedReport} (hw : t.WF) (hg : (s.getAtts.map Prod.fst).Nodup) (h : basedSet t present path k s (sc, .dict m) = .ok l) (r : BasedReport) :
    r ∈ l ↔ (∃ u, dlookup (Key.str k) m = some u ∧ Triggers t s u) ∧ ∃ n ∈ s.names, dhas (Key.str n) m = present ∧ r = ⟨path, k, n, sc⟩ := by
  unfold basedSet at h
  simp only [Val.getD] at h
  have hlook : (∃ u, dlookup (Key.str k) m = some u ∧ Triggers t s u) ↔ basedOnValue t s ((dlookup (Key.str k) m).getD .none) = .ok true := by
    cases hd : dlookup (Key.str k) m with
    | none => simp [basedOnValue]
    | some u => simp [basedOnValue_iff hw hg]
  rw [hlook]
  split at h
  · cases h
  · rename_i hb
    injection h with h
    subst h
    rw [hb]
    simp
  · rename_i hb
    rw [hb]
    obtain ⟨l', hl', hm⟩ := mem_basedNames (present := present) (path := path) (k := k) (names := s.names) (sc := sc) (m := m)
    rw [hl'] at h
    injection h with h
    subst h
    rw [hm r]
    simp

/-- the sets of an object: it itself, if there are no scenarios, or the objects of the scenarios -/
theorem based_sets {enum : String → List String → List String} {order : List String → List String} {tb : CondTable}
    {kvs : List (Key × Val)} {group : List String} {sets : List (Option Scenario × Val)} (hk : (kvs.map Prod.fst).Nodup) (hp : PlainObject kvs)
    (hg : group ≠ []) (hn : "Fn::If" ∉ group) (h : objectWithoutNamed enum order tb (.dict kvs) group = .ok sets) :
    ∃ cs scs, (∀ c, c ∈ cs ↔ GroupCond kvs group c) ∧ getScenarios enum tb ((order cs).map Key.str) = .ok scs ∧
      objectsWithout scs (.dict kvs) = .ok sets ∧ ∀ s, s ∈ sets ↔ (scs = [] ∧ s = (none, .dict kvs)) ∨
      ∃ sc ∈ scs, ∃ l, valueFromScenario sc (.dict kvs) = .ok (.dict l) ∧ l ≠ [] ∧ s = (some sc, .dict l) := by
  obtain ⟨o, ho, hc⟩ := named_conds hk hg hn
  unfold objectWithoutNamed at h
  rw [ho] at h
  simp only at h
  cases hs : getScenarios enum tb ((order (objectConds (.dict o))).map Key.str) with
  | error e => rw [hs] at h; cases h
  | ok scs =>
    rw [hs] at h
    simp only at h
    obtain ⟨sets', h1, h2⟩ := objectsWithout_keys hp.noIf (plain_ne hp) hp.proper scs
    rw [h] at h1
    injection h1 with h1
    subst h1
    exact ⟨_, scs, hc, hs, h, h2⟩

/-- in a set, a value that triggers is what agreeing truth values choose -/
theorem set_triggered {t : Val} {s : BasedOn} {kvs m : List (Key × Val)} {k : String} {u : Val} {sc : Option Scenario} {scs : List Scenario}
    (hk : (kvs.map Prod.fst).Nodup) (hp : PlainObject kvs) (hset : (scs = [] ∧ (sc, Val.dict m) = (none, .dict kvs)) ∨
      ∃ sc' ∈ scs, ∃ l, valueFromScenario sc' (.dict kvs) = .ok (.dict l) ∧ l ≠ [] ∧ (sc, Val.dict m) = (some sc', .dict l))
    (hu : dlookup (Key.str k) m = some u) (ht : Triggers t s u) (σ : String → Bool) (hσ : Agrees sc σ) : TriggeredBy σ t kvs k s := by
  obtain ⟨h1, h2, h3, _⟩ := triggers_kept ht
  rcases hset with ⟨_, he⟩ | ⟨sc', _, l, hl, _, he⟩
  · injection he with e1 e2
    injection e2 with e2
    subst e2
    exact ⟨u, [], u, dlookup_mem hu, .here h3, ht⟩
  · injection he with e1 e2
    injection e2 with e2
    subst e1 e2
    obtain ⟨v, hv, hv2, _⟩ := (scenario_lookup hk hp.noIf hl _ _).1 hu
    obtain ⟨q, hq⟩ := valueIn_chosen_of sc' h1 h2 h3 v (hp.proper _ hv) hv2 σ (agrees_some hσ)
    exact ⟨v, q, u, hv, hq, ht⟩

/-- **C93** what a finding means: an element of the specification lists the two properties, and in all deployments that agree with the scenario
the first has a value that the element is about. -/
theorem C93_triggered {enum : String → List String → List String} {order : List String → List String} {tb : CondTable} {t : Val}
    {present : Bool} {specs : List (String × List BasedOn)} {kvs : List (Key × Val)} {path : Path} {res : List BasedReport}
    (hw : t.WF) (hk : (kvs.map Prod.fst).Nodup) (hp : PlainObject kvs) (hg : ∀ kr ∈ specs, ∀ s ∈ kr.2, GoodBasedRow kr.1 s)
    (h : basedCheck enum order tb t present specs (.dict kvs) path = .ok res) {r : BasedReport} (hr : r ∈ res) :
    r.path = path ∧ ∃ rows, (r.prop, rows) ∈ specs ∧ ∃ s ∈ rows, r.other ∈ s.names ∧
      ∀ σ, Agrees r.scenario σ → TriggeredBy σ t kvs r.prop s := by
  obtain ⟨rpath, k, other, rsc⟩ := r
  obtain ⟨rows, hrows, s, hs, hn, hpath, sets, hsets, l, hl, hrl⟩ := (mem_basedCheck h _).1 hr
  simp only at hrows hn hpath hsets hl
  refine ⟨hpath, rows, hrows, s, hs, hn, ?_⟩
  obtain ⟨hg1, hg2⟩ := hg _ hrows s hs
  obtain ⟨cs, scs, hcs, hsc, hobj, hmem⟩ := based_sets hk hp (by simp) hg2 hsets
  obtain ⟨set, hset, l1, hl1, hr1⟩ := (mem_collectM hl).1 hrl
  have hs' := (hmem set).1 hset
  obtain ⟨m, hm, _⟩ := sets_sound hp hobj hset
  obtain ⟨sc, obj⟩ := set
  simp only at hm
  subst hm
  obtain ⟨⟨u, hu, ht⟩, n, hn', hd, he⟩ := (mem_basedSet hw hg1 hl1 _).1 hr1
  simp only [BasedReport.mk.injEq, true_and] at he
  obtain ⟨_, rfl, rfl⟩ := he
  exact set_triggered hk hp hs' hu ht

/-- **C93** E3017: what is reported as missing is missing in all deployments that agree with the scenario. -/
theorem C93_required_sound {enum : String → List String → List String} {order : List String → List String} {tb : CondTable} {t : Val}
    {specs : List (String × List BasedOn)} {kvs : List (Key × Val)} {path : Path} {res : List BasedReport}
    (hw : t.WF) (hk : (kvs.map Prod.fst).Nodup) (hp : PlainObject kvs) (hg : ∀ kr ∈ specs, ∀ s ∈ kr.2, GoodBasedRow kr.1 s)
    (h : basedCheck enum order tb t false specs (.dict kvs) path = .ok res) {r : BasedReport} (hr : r ∈ res) :
    r.path = path ∧ ∃ rows, (r.prop, rows) ∈ specs ∧ ∃ s ∈ rows, r.other ∈ s.names ∧
      ∀ σ, Agrees r.scenario σ → TriggeredBy σ t kvs r.prop s ∧ ¬ HasProp σ kvs r.other := by
  obtain ⟨rpath, k, other, rsc⟩ := r
  obtain ⟨rows, hrows, s, hs, hn, hpath, sets, hsets, l, hl, hrl⟩ := (mem_basedCheck h _).1 hr
  simp only at hrows hn hpath hsets hl
  refine ⟨hpath, rows, hrows, s, hs, hn, ?_⟩
  obtain ⟨hg1, hg2⟩ := hg _ hrows s hs
  obtain ⟨cs, scs, hcs, hsc, hobj, hmem⟩ := based_sets hk hp (by simp) hg2 hsets
  obtain ⟨set, hset, l1, hl1, hr1⟩ := (mem_collectM hl).1 hrl
  have hs' := (hmem set).1 hset
  obtain ⟨m, hm, hkeep, _⟩ := sets_sound hp hobj hset
  obtain ⟨sc, obj⟩ := set
  simp only at hm
  subst hm
  obtain ⟨⟨u, hu, ht⟩, n, hn', hd, he⟩ := (mem_basedSet hw hg1 hl1 _).1 hr1
  simp only [BasedReport.mk.injEq, true_and] at he
  obtain ⟨_, rfl, rfl⟩ := he
  refine fun σ hσ => ⟨set_triggered hk hp hs' hu ht σ hσ, fun hh => ?_⟩
  have := hkeep σ hσ _ hh
  rw [← dhas_iff] at this
  simp only at this
  rw [hd] at this
  cases this

/-- the full statement for E3018: what is reported as unwanted is there, in all deployments that agree with the scenario when it decides the
conditions of the two properties -/
def C93_unwanted_statement : Prop := ∀ (enum : String → List String → List String) (order : List String → List String) (tb : CondTable) (t : Val)
  (specs : List (String × List BasedOn)) (kvs : List (Key × Val)) (path : Path) (res : List BasedReport), t.WF → (kvs.map Prod.fst).Nodup →
  PlainObject kvs → (∀ kr ∈ specs, ∀ s ∈ kr.2, GoodBasedRow kr.1 s) → basedCheck enum order tb t true specs (.dict kvs) path = .ok res →
  ∀ r ∈ res, (∀ c, GroupCond kvs [r.prop, r.other] c → Decided r.scenario c) → ∀ σ, Agrees r.scenario σ → HasProp σ kvs r.other

/-- **C93** E3018, what holds: with a scenario, or when the property is not written as `AWS::NoValue`. -/
theorem C93_unwanted_sound_partial {enum : String → List String → List String} {order : List String → List String} {tb : CondTable} {t : Val}
    {specs : List (String × List BasedOn)} {kvs : List (Key × Val)} {path : Path} {res : List BasedReport}
    (hw : t.WF) (hk : (kvs.map Prod.fst).Nodup) (hp : PlainObject kvs) (hg : ∀ kr ∈ specs, ∀ s ∈ kr.2, GoodBasedRow kr.1 s)
    (h : basedCheck enum order tb t true specs (.dict kvs) path = .ok res) {r : BasedReport} (hr : r ∈ res)
    (hdec : ∀ c, GroupCond kvs [r.prop, r.other] c → Decided r.scenario c) (hno : r.scenario ≠ none ∨ (Key.str r.other, noValue) ∉ kvs) :
    ∀ σ, Agrees r.scenario σ → HasProp σ kvs r.other := by
  obtain ⟨rpath, k, other, rsc⟩ := r
  obtain ⟨rows, hrows, s, hs, hn, hpath, sets, hsets, l, hl, hrl⟩ := (mem_basedCheck h _).1 hr
  simp only at hrows hn hpath hsets hl
  obtain ⟨hg1, hg2⟩ := hg _ hrows s hs
  obtain ⟨cs, scs, hcs, hsc, hobj, hmem⟩ := based_sets hk hp (by simp) hg2 hsets
  obtain ⟨set, hset, l1, hl1, hr1⟩ := (mem_collectM hl).1 hrl
  have hs' := (hmem set).1 hset
  obtain ⟨m, hm, _, hback, _⟩ := sets_sound hp hobj hset
  obtain ⟨sc, obj⟩ := set
  simp only at hm
  subst hm
  obtain ⟨_, n, hn', hd, he⟩ := (mem_basedSet hw hg1 hl1 _).1 hr1
  simp only [BasedReport.mk.injEq, true_and] at he
  obtain ⟨_, rfl, rfl⟩ := he
  simp only at hdec hno hback ⊢
  intro σ hσ
  have hasks : ∀ v, (Key.str other, v) ∈ kvs → ∀ c, Asks c v → Decided rsc c := fun v hv c hc => hdec c ⟨other, by simp, v, hv, hc⟩
  by_cases hnv : (Key.str other, noValue) ∈ kvs
  · rcases hs' with ⟨_, he⟩ | ⟨sc', _, l', hl', _, he⟩
    · injection he with e1 e2
      subst e1
      rcases hno with h | h
      · exact absurd rfl h
      · exact absurd hnv h
    · injection he with e1 e2
      injection e2 with e2
      subst e1 e2
      obtain ⟨u, hu⟩ := Option.isSome_iff_exists.1 hd
      obtain ⟨v, hv, hv2, hv3⟩ := (scenario_lookup hk hp.noIf hl' _ _).1 hu
      have hvn : v = noValue := by
        have a1 := dlookup_of_mem hk hv
        have a2 := dlookup_of_mem hk hnv
        rw [a1] at a2
        injection a2
      subst hvn
      simp [noValue, valueIn] at hv2
      exact absurd hv2.symm hv3
  · exact hback σ other hσ (fun v hv => ⟨by rintro rfl; exact hnv hv, hasks v hv⟩) (dhas_iff.1 hd)

/-- a deployment in which the property triggers has a set -/
theorem based_complete {H : Val → String} {fuel : Nat} {enum : String → List String → List String} {order : List String → List String}
    {t : List (Key × Val)} {tb : CondTable} {b : String → Bool} {present : Bool} {specs : List (String × List BasedOn)} {kvs : List (Key × Val)}
    {path : Path} {res : List BasedReport} {k : String} {rows : List BasedOn} {s : BasedOn} {n : String}
    (ho : SetOrder order) (hk : (kvs.map Prod.fst).Nodup) (hp : PlainObject kvs) (hg : ∀ kr ∈ specs, ∀ s ∈ kr.2, GoodBasedRow kr.1 s)
    (h : basedCheck enum order tb (.dict t) present specs (.dict kvs) path = .ok res) (hrows : (k, rows) ∈ specs) (hs : s ∈ rows)
    (hd : Deployment H fuel enum t tb (GroupCond kvs (k :: s.names)) b) (hnv : ∀ ty, ¬ ResourceTyped (.dict t) (.str "AWS::NoValue") ty)
    (ht : TriggeredBy b (.dict t) kvs k s) (hn : n ∈ s.names)
    (hpres : ∀ sc m, Agrees sc b → (∀ c, GroupCond kvs (k :: s.names) c → Decided sc c) → (sc = none → m = kvs) →
      (∀ σ, Agrees sc σ → ∀ n, HasProp σ kvs n → Key.str n ∈ m.map Prod.fst) →
      (∀ σ, Agrees sc σ → ∀ n, (∀ v, (Key.str n, v) ∈ kvs → ∀ c, Asks c v → Decided sc c) → sc ≠ none → Key.str n ∈ m.map Prod.fst → HasProp σ kvs n) →
      dhas (Key.str n) m = present) :
    ∃ r ∈ res, r.path = path ∧ r.prop = k ∧ r.other = n ∧ Agrees r.scenario b := by
  obtain ⟨v, q, u, hv, hc, hu⟩ := ht
  obtain ⟨u1, u2, u3, u4⟩ := triggers_kept hu
  have hun : u ≠ noValue := fun e => by
    obtain ⟨ty, hty⟩ := u4 e
    exact hnv _ hty
  have hhas : HasProp b kvs k := ⟨v, hv, chosen_not_removed hc hun⟩
  obtain ⟨hg1, hg2⟩ := hg _ hrows s hs
  have hnames : s.names ≠ [] := by intro e; rw [e] at hn; cases hn
  obtain ⟨l0, hl0⟩ : ∃ l, collectM (fun kv : String × List BasedOn => collectM (basedRow enum order tb (.dict t) present (.dict kvs) path kv.1) kv.2) specs = .ok l := by
    unfold basedCheck at h
    rw [if_neg (by simp)] at h
    exact ⟨_, h⟩
  obtain ⟨l1, hl1⟩ := collectM_each hl0 _ hrows
  obtain ⟨l2, hl2⟩ := collectM_each hl1 _ hs
  simp only at hl2
  unfold basedRow at hl2
  rw [if_neg hnames] at hl2
  cases hsets : objectWithoutNamed enum order tb (.dict kvs) (k :: s.names) with
  | error e => rw [hsets] at hl2; cases hl2
  | ok sets =>
    rw [hsets] at hl2
    simp only at hl2
    obtain ⟨cs, scs, hcs, hsc, hobj, hmem⟩ := based_sets hk hp (by simp) hg2 hsets
    obtain ⟨set, hset, hag, hdec⟩ := sets_complete hd ho hcs hsc hp hobj (.inl ⟨_, hhas⟩)
    obtain ⟨l3, hl3⟩ := collectM_each hl2 _ hset
    have hs' := (hmem set).1 hset
    obtain ⟨m, hm, hkeep, _⟩ := sets_sound hp hobj hset
    obtain ⟨sc, obj⟩ := set
    simp only at hm hag hdec hkeep
    subst hm
    have hlook : dlookup (Key.str k) m = some u := by
      rcases hs' with ⟨_, he⟩ | ⟨sc', _, l', hl', _, he⟩
      · injection he with e1 e2
        injection e2 with e2
        subst e1 e2
        cases hc with
        | here => exact dlookup_of_mem hk hv
        | left _ _ =>
          obtain ⟨_, _, e, _⟩ := hdec _ ⟨k, by simp, _, hv, .here⟩
          cases e
        | right _ _ =>
          obtain ⟨_, _, e, _⟩ := hdec _ ⟨k, by simp, _, hv, .here⟩
          cases e
      · injection he with e1 e2
        injection e2 with e2
        subst e1 e2
        refine (scenario_lookup hk hp.noIf hl' _ _).2 ⟨v, hv, valueIn_of_chosen hc u2 hun ?_, u1⟩
        intro c hca
        obtain ⟨x, hx⟩ := decided_fn (hdec c ⟨k, by simp, v, hv, hca⟩)
        rw [hx, agrees_some hag c x hx]
    have hdh : dhas (Key.str n) m = present := by
      refine hpres sc m hag hdec ?_ hkeep ?_
      · intro e
        rcases hs' with ⟨_, he⟩ | ⟨sc', _, l', hl', _, he⟩
        · injection he with e1 e2
          injection e2
        · injection he with e1 e2
          rw [e] at e1
          cases e1
      · intro σ hσ n' hasks hne hkey
        rcases hs' with ⟨_, he⟩ | ⟨sc', _, l', hl', _, he⟩
        · injection he with e1 e2
          exact absurd e1 hne
        · injection he with e1 e2
          injection e2 with e2
          subst e1 e2
          obtain ⟨m', hm', hkeys⟩ := valueFromScenario_keys sc' hp.noIf hp.proper
          rw [hl'] at hm'
          injection hm' with hm'
          injection hm' with hm'
          subst hm'
          exact (scenario_hasProp hp.proper hkeys (agrees_some hσ) (fun v hv c hr => decided_fn (hasks v hv c hr))).1 hkey
    refine ⟨⟨path, k, n, sc⟩, (mem_basedCheck h _).2 ⟨rows, hrows, s, hs, hn, rfl, sets, hsets, l2, hl2, ?_⟩, rfl, rfl, rfl, hag⟩
    rw [mem_collectM hl2]
    exact ⟨_, hset, l3, hl3, (mem_basedSet hd.wf hg1 hl3 _).2 ⟨⟨u, hlook, hu⟩, n, hn, hdh, rfl⟩⟩

/-- **C93** E3018 reports each unwanted property that a deployment has, when the other property has a value that the specification is about. -/
theorem C93_unwanted_complete {H : Val → String} {fuel : Nat} {enum : String → List String → List String} {order : List String → List String}
    {t : List (Key × Val)} {tb : CondTable} {b : String → Bool} {specs : List (String × List BasedOn)} {kvs : List (Key × Val)}
    {path : Path} {res : List BasedReport} {k : String} {rows : List BasedOn} {s : BasedOn} {n : String}
    (ho : SetOrder order) (hk : (kvs.map Prod.fst).Nodup) (hp : PlainObject kvs) (hg : ∀ kr ∈ specs, ∀ s ∈ kr.2, GoodBasedRow kr.1 s)
    (h : basedCheck enum order tb (.dict t) true specs (.dict kvs) path = .ok res) (hrows : (k, rows) ∈ specs) (hs : s ∈ rows)
    (hd : Deployment H fuel enum t tb (GroupCond kvs (k :: s.names)) b) (hnv : ∀ ty, ¬ ResourceTyped (.dict t) (.str "AWS::NoValue") ty)
    (ht : TriggeredBy b (.dict t) kvs k s) (hn : n ∈ s.names) (hhas : HasProp b kvs n) :
    ∃ r ∈ res, r.path = path ∧ r.prop = k ∧ r.other = n ∧ Agrees r.scenario b :=
  based_complete ho hk hp hg h hrows hs hd hnv ht hn (fun sc m hag _ _ hkeep _ => dhas_iff.2 (hkeep b hag n hhas))

/-- the full statement for E3017: each required property that a deployment lacks is reported -/
def C93_required_statement : Prop := ∀ (H : Val → String) (fuel : Nat) (enum : String → List String → List String) (order : List String → List String)
  (t : List (Key × Val)) (tb : CondTable) (b : String → Bool) (specs : List (String × List BasedOn)) (kvs : List (Key × Val))
  (path : Path) (res : List BasedReport) (k : String) (rows : List BasedOn) (s : BasedOn) (n : String),
  SetOrder order → (kvs.map Prod.fst).Nodup → PlainObject kvs → (∀ kr ∈ specs, ∀ s ∈ kr.2, GoodBasedRow kr.1 s) →
  basedCheck enum order tb (.dict t) false specs (.dict kvs) path = .ok res → (k, rows) ∈ specs → s ∈ rows →
  Deployment H fuel enum t tb (GroupCond kvs (k :: s.names)) b → (∀ ty, ¬ ResourceTyped (.dict t) (.str "AWS::NoValue") ty) →
  TriggeredBy b (.dict t) kvs k s → n ∈ s.names → ¬ HasProp b kvs n → ∃ r ∈ res, r.path = path ∧ r.prop = k ∧ r.other = n ∧ Agrees r.scenario b

/-- **C93** E3017, what holds: when the properties depend on a condition, or the missing one is not written as `AWS::NoValue`. -/
theorem C93_required_complete_partial {H : Val → String} {fuel : Nat} {enum : String → List String → List String} {order : List String → List String}
    {t : List (Key × Val)} {tb : CondTable} {b : String → Bool} {specs : List (String × List BasedOn)} {kvs : List (Key × Val)}
    {path : Path} {res : List BasedReport} {k : String} {rows : List BasedOn} {s : BasedOn} {n : String}
    (ho : SetOrder order) (hk : (kvs.map Prod.fst).Nodup) (hp : PlainObject kvs) (hg : ∀ kr ∈ specs, ∀ s ∈ kr.2, GoodBasedRow kr.1 s)
    (h : basedCheck enum order tb (.dict t) false specs (.dict kvs) path = .ok res) (hrows : (k, rows) ∈ specs) (hs : s ∈ rows)
    (hd : Deployment H fuel enum t tb (GroupCond kvs (k :: s.names)) b) (hnv : ∀ ty, ¬ ResourceTyped (.dict t) (.str "AWS::NoValue") ty)
    (ht : TriggeredBy b (.dict t) kvs k s) (hn : n ∈ s.names) (hhas : ¬ HasProp b kvs n)
    (hno : (∃ c, GroupCond kvs (k :: s.names) c) ∨ (Key.str n, noValue) ∉ kvs) :
    ∃ r ∈ res, r.path = path ∧ r.prop = k ∧ r.other = n ∧ Agrees r.scenario b := by
  refine based_complete ho hk hp hg h hrows hs hd hnv ht hn (fun sc m hag hdec hsame hkeep hback => ?_)
  cases hdh : dhas (Key.str n) m with
  | false => rfl
  | true =>
    exfalso
    apply hhas
    have hasks : ∀ v, (Key.str n, v) ∈ kvs → ∀ c, Asks c v → Decided sc c :=
      fun v hv c hc => hdec c ⟨n, List.mem_cons_of_mem _ hn, v, hv, hc⟩
    by_cases hsc : sc = none
    · obtain ⟨⟨k', v⟩, hv, he⟩ := List.mem_map.1 (dhas_iff.1 hdh)
      rw [hsame hsc] at hv
      simp only at he
      subst he
      refine ⟨v, hv, fun hr => ?_⟩
      have hnd : ∀ c, ¬ GroupCond kvs (k :: s.names) c := fun c hc => by
        obtain ⟨_, _, e, _⟩ := hdec c hc
        rw [hsc] at e
        cases e
      cases hr with
      | here =>
        rcases hno with ⟨c, hc⟩ | hno
        · exact hnd c hc
        · exact hno hv
      | left => exact hnd _ ⟨n, List.mem_cons_of_mem _ hn, _, hv, .here⟩
      | right => exact hnd _ ⟨n, List.mem_cons_of_mem _ hn, _, hv, .here⟩
    · exact hback b hag n hasks hsc (dhas_iff.1 hdh)

/-- **C93** which values the rules look for; the attribute of a resource that the template does not have makes them raise -/
theorem C93_value {t : Val} {s : BasedOn} (hw : t.WF) (hg : (s.getAtts.map Prod.fst).Nodup) (v : Val) :
    basedOnValue t s v = .ok true ↔ Triggers t s v := basedOnValue_iff hw hg v

/-- **C93** the attribute of a resource that does not exist raises -/
theorem C93_unknown_raises {t rs : List (Key × Val)} {s : BasedOn} {x : String} {more : List Val} (hr : dlookup (Key.str "Resources") t = some (.dict rs))
    (hx : Key.str x ∉ rs.map Prod.fst) (hs : s.getAtts ≠ []) :
    basedOnValue (.dict t) s (.dict [(.str "Fn::GetAtt", .list (.str x :: more))]) = .error (attrErr .none "get") := by
  have hn : dlookup (Key.str x) rs = none := dlookup_none_iff.2 hx
  simp [basedOnValue, hs, basedOnGetAtt, typeOfResource, Val.getD, hr, toKey, hn]

/-- **C93** an element without resource types never looks at the resources, whatever the template is; a reference to something that is no resource is
no match -/
theorem C93_reference {t : Val} {s : BasedOn} {x : String} :
    (s.refs = [] → basedOnValue t s (.dict [(.str "Ref", .str x)]) = .ok false) ∧
    (∀ tk rs, t = .dict tk → dlookup (Key.str "Resources") tk = some (.dict rs) → Key.str x ∉ rs.map Prod.fst →
      basedOnValue t s (.dict [(.str "Ref", .str x)]) = .ok false) := by
  constructor
  · intro h
    simp [basedOnValue, h]
  · rintro tk rs rfl hr hx
    have hn : dlookup (Key.str x) rs = none := dlookup_none_iff.2 hx
    by_cases h : s.refs = []
    · simp [basedOnValue, h]
    · simp [basedOnValue, h, typeOfResource, Val.getD, hr, hn, dlookup]

/-- **C93** `Fn::GetAtt` of a resource of a listed type without the attribute raises -/
theorem C93_short_raises {t : Val} {s : BasedOn} {x : Val} {k : Key} {ty a : String} (hw : t.WF) (hg : (s.getAtts.map Prod.fst).Nodup)
    (hx : AsName x k) (hr : ResourceTyped t k (.str ty)) (ha : (ty, a) ∈ s.getAtts) :
    basedOnValue t s (.dict [(.str "Fn::GetAtt", .list [x])]) = .error (.indexError "list index out of range") := by
  have hne : s.getAtts ≠ [] := by intro e; rw [e] at ha; cases ha
  have hk := asName_iff.1 hx
  have ht := typeOfResource_of hw hr .none
  have hl := dlookup_of_mem hg ha
  have hgo : basedOnGetAtt t s.getAtts [x] = .error (.indexError "list index out of range") := by
    cases hx <;> (rw [toKey] at hk; simp_all [basedOnGetAtt, toKey])
  simp [basedOnValue, hne, hgo]

/-- **C93** a resource whose properties are chosen by `Fn::If` is not checked -/
theorem C93_choice_missed {enum : String → List String → List String} {order : List String → List String} {tb : CondTable} {t : Val} {present : Bool}
    {specs : List (String × List BasedOn)} {x : Val} {path : Path} (ho : SetOrder order) (hg : ∀ kr ∈ specs, ∀ s ∈ kr.2, GoodBasedRow kr.1 s) :
    basedCheck enum order tb t present specs (.dict [(.str "Fn::If", x)]) path = .ok [] := by
  have hrow : ∀ k s, GoodBasedRow k s → basedRow enum order tb t present (.dict [(.str "Fn::If", x)]) path k s = .ok [] := by
    intro k s hgs
    unfold basedRow
    by_cases hn : s.names = []
    · rw [if_pos hn]
    · rw [if_neg hn]
      obtain ⟨o, ho1, hc⟩ := named_conds (kvs := [(Key.str "Fn::If", x)]) (names := k :: s.names) (by simp) (by simp) hgs.2
      have hnil : objectConds (.dict o) = [] := by
        rw [List.eq_nil_iff_forall_not_mem]
        intro c hcm
        obtain ⟨n, hn', v, hv, _⟩ := (hc c).1 hcm
        simp only [List.mem_singleton, Prod.mk.injEq, Key.str.injEq] at hv
        exact hgs.2 (hv.1 ▸ hn')
      have hord : order [] = [] := by
        rw [List.eq_nil_iff_forall_not_mem]
        intro c hcm
        have := ((ho []).2 c).1 hcm
        cases this
      unfold objectWithoutNamed
      rw [ho1]
      simp only [hnil, hord, List.map_nil, getScenarios_nil]
      have hk : (Key.str "Fn::If" == Key.str k) = false := by
        rw [beq_eq_false_iff_ne]
        intro e
        injection e with e
        exact hgs.2 (by rw [e]; simp)
      have hset : basedSet t present path k s (none, .dict [(.str "Fn::If", x)]) = .ok [] := by
        have : dlookup (Key.str k) [(Key.str "Fn::If", x)] = none := by
          rw [dlookup_none_iff]
          simp only [List.map_cons, List.map_nil, List.mem_singleton]
          intro e
          rw [e] at hk
          simp at hk
        unfold basedSet
        simp only [Val.getD, this, Option.getD_none, basedOnValue]
      simp [objectsWithout, Val.isDict, collectM, hset]
  have hnil : ∀ {α β : Type} (f : α → PyM (List β)) (as : List α), (∀ a ∈ as, f a = .ok []) → collectM f as = .ok [] := by
    intro α β f as
    induction as with
    | nil => intro _; rfl
    | cons a rest ih =>
      intro hh
      rw [collectM, hh a List.mem_cons_self, ih (fun b hb => hh b (List.mem_cons_of_mem _ hb))]
      rfl
  unfold basedCheck
  rw [if_neg (by simp)]
  exact hnil _ _ (fun kr hkr => hnil _ _ (fun s hs => hrow _ _ (hg _ hkr _ hs)))

/-! ### Examples -/

/-- when `A` is the text `x`, the rule is about `B` -/
def exBasedRow : BasedOn := ⟨some (fun y => y == "x"), [], [], ["B"]⟩

def exBasedSpecs : List (String × List BasedOn) := [("A", [exBasedRow])]

theorem exBased_good : ∀ kr ∈ exBasedSpecs, ∀ s ∈ kr.2, GoodBasedRow kr.1 s := by
  intro kr hkr s hs
  simp only [exBasedSpecs, List.mem_singleton] at hkr
  subst hkr
  simp only [List.mem_singleton] at hs
  subst hs
  exact ⟨by simp [exBasedRow], by simp [exBasedRow]⟩

theorem exOne_noResources {k : Key} {ty : Val} : ¬ ResourceTyped (.dict exOne) k ty := by
  rintro ⟨t, rs, r, h, hm, _⟩
  injection h with h
  subst h
  simp [exOne] at hm

/-- the other property is written as `AWS::NoValue` -/
def exBasedNone : List (Key × Val) := [(.str "A", .str "x"), (.str "B", noValue)]

theorem exBasedNone_plain : PlainObject exBasedNone :=
  ⟨by simp [exBasedNone], by simp [exBasedNone], by simp [exBasedNone, noValue, Proper]⟩

theorem exBasedNone_cond {c : String} : ¬ GroupCond exBasedNone ["A", "B"] c := by
  rintro ⟨n, _, v, hm, ha⟩
  simp only [exBasedNone, List.mem_cons, Prod.mk.injEq, Key.str.injEq, List.not_mem_nil, or_false] at hm
  rcases hm with ⟨_, rfl⟩ | ⟨_, rfl⟩
  · generalize hv : Val.str "x" = v at ha
    cases ha <;> simp [fnIf] at hv
  · exact reached_noValue ha

theorem exBasedNone_lacks {σ : String → Bool} : ¬ HasProp σ exBasedNone "B" := by
  rintro ⟨v, hm, hr⟩
  simp [exBasedNone] at hm
  subst hm
  exact hr .here

theorem exBased_trigger {σ : String → Bool} {t : Val} : TriggeredBy σ t exBasedNone "A" exBasedRow :=
  ⟨.str "x", [], .str "x", by simp [exBasedNone], .here (by rintro ⟨_, h⟩; simp at h), .text rfl rfl⟩

/-- **C93** violated: E3017 takes a property written as `AWS::NoValue` for present. -/
theorem C93_required_violated : ¬ C93_required_statement := by
  intro h
  obtain ⟨r, hr, _⟩ := h exHash 5 (fun _ s => s) List.eraseDups exOne exOneTable (fun _ => false) exBasedSpecs exBasedNone [] [] "A"
    [exBasedRow] exBasedRow "B" setOrder_eraseDups (by simp [exBasedNone]) exBasedNone_plain exBased_good rfl (by simp [exBasedSpecs]) (by simp)
    (exOne_deployment (.inr rfl) (fun _ hc => absurd hc exBasedNone_cond) (by decide)) (fun _ => exOne_noResources) exBased_trigger
    (by simp [exBasedRow]) exBasedNone_lacks
  cases hr

/-- **C93** violated: E3018 reports a property written as `AWS::NoValue`. -/
theorem C93_unwanted_violated : ¬ C93_unwanted_statement := by
  intro h
  exact exBasedNone_lacks (h (fun _ s => s) List.eraseDups exOneTable (.dict exOne) exBasedSpecs exBasedNone [] [⟨[], "A", "B", none⟩] exOne_wf
    (by simp [exBasedNone]) exBasedNone_plain exBased_good rfl ⟨[], "A", "B", none⟩ (by simp) (fun c hc => absurd hc exBasedNone_cond) (fun _ => true)
    (by intro s hs; cases hs))

/-- both properties depend on a condition -/
def exBasedIf : List (Key × Val) :=
  [(.str "A", fnIf (.str "C1") (.str "x") (.str "y")), (.str "B", fnIf (.str "C1") noValue (.int 1))]

theorem exBasedIf_plain : PlainObject exBasedIf :=
  ⟨by simp [exBasedIf], by simp [exBasedIf], by simp [exBasedIf, noValue, fnIf, Proper, ProperIf]⟩

theorem exBasedIf_cond {c : String} (h : GroupCond exBasedIf ["A", "B"] c) : c = "C1" := by
  obtain ⟨n, _, v, hm, ha⟩ := h
  have := (mem_propConds c v).2 ha
  simp only [exBasedIf, List.mem_cons, Prod.mk.injEq, Key.str.injEq, List.not_mem_nil, or_false] at hm
  rcases hm with ⟨_, rfl⟩ | ⟨_, rfl⟩ <;> simpa [fnIf, propConds, propIfConds, noValue] using this

theorem exBasedIf_lacks : ¬ HasProp (fun _ => true) exBasedIf "B" := by
  rintro ⟨v, hm, hr⟩
  simp [exBasedIf] at hm
  subst hm
  exact hr (.left rfl .here)

theorem exBasedIf_required : basedCheck (fun _ s => s) List.eraseDups exOneTable (.dict exOne) false exBasedSpecs (.dict exBasedIf) [] =
    .ok [⟨[], "A", "B", some [(.str "C1", some true)]⟩] := rfl

theorem exBasedIf_trigger {t : Val} : TriggeredBy (fun _ => true) t exBasedIf "A" exBasedRow :=
  ⟨_, _, .str "x", List.mem_cons_self, .left rfl (.here (by rintro ⟨_, h⟩; simp at h)), .text rfl rfl⟩

/-- the hypotheses of `C93_required_complete_partial` are met -/
example : ∃ r ∈ [(⟨[], "A", "B", some [(.str "C1", some true)]⟩ : BasedReport)], r.path = [] ∧ r.prop = "A" ∧ r.other = "B" ∧
    Agrees r.scenario (fun _ => true) :=
  C93_required_complete_partial setOrder_eraseDups (by simp [exBasedIf]) exBasedIf_plain exBased_good exBasedIf_required (rows := [exBasedRow])
    (by simp [exBasedSpecs]) (by simp) (exOne_deployment (.inl rfl) (fun _ => exBasedIf_cond) (by decide)) (fun _ => exOne_noResources)
    exBasedIf_trigger (by simp [exBasedRow]) exBasedIf_lacks (.inl ⟨"C1", "A", by simp, _, List.mem_cons_self, .here⟩)

/-- the hypotheses of `C93_triggered` and `C93_required_sound` are met -/
example : ∃ rows, ("A", rows) ∈ exBasedSpecs ∧ ∃ s ∈ rows, "B" ∈ s.names ∧ ∀ σ, Agrees (some [(.str "C1", some true)]) σ →
    TriggeredBy σ (.dict exOne) exBasedIf "A" s ∧ ¬ HasProp σ exBasedIf "B" :=
  (C93_required_sound exOne_wf (by simp [exBasedIf]) exBasedIf_plain exBased_good exBasedIf_required List.mem_cons_self).2

/-- the unwanted property depends on a condition -/
def exBasedThere : List (Key × Val) := [(.str "A", .str "x"), (.str "B", fnIf (.str "C1") (.int 1) noValue)]

theorem exBasedThere_plain : PlainObject exBasedThere :=
  ⟨by simp [exBasedThere], by simp [exBasedThere], by simp [exBasedThere, noValue, fnIf, Proper, ProperIf]⟩

theorem exBasedThere_cond {c : String} (h : GroupCond exBasedThere ["A", "B"] c) : c = "C1" := by
  obtain ⟨n, _, v, hm, ha⟩ := h
  have := (mem_propConds c v).2 ha
  simp only [exBasedThere, List.mem_cons, Prod.mk.injEq, Key.str.injEq, List.not_mem_nil, or_false] at hm
  rcases hm with ⟨_, rfl⟩ | ⟨_, rfl⟩
  · simp [propConds] at this
  · simpa [fnIf, propConds, propIfConds, noValue] using this

theorem exBasedThere_unwanted : basedCheck (fun _ s => s) List.eraseDups exOneTable (.dict exOne) true exBasedSpecs (.dict exBasedThere) [] =
    .ok [⟨[], "A", "B", some [(.str "C1", some true)]⟩] := rfl

theorem exBasedThere_has {σ : String → Bool} (h : σ "C1" = true) : HasProp σ exBasedThere "B" := by
  refine ⟨fnIf (.str "C1") (.int 1) noValue, by simp [exBasedThere], ?_⟩
  rw [removed_fnIf]
  rintro (⟨_, h1⟩ | ⟨h1, _⟩)
  · rw [removed_not_if (by rintro ⟨_, h⟩; simp at h)] at h1
    simp [noValue] at h1
  · rw [h] at h1
    cases h1

/-- the hypotheses of `C93_unwanted_complete` are met -/
example : ∃ r ∈ [(⟨[], "A", "B", some [(.str "C1", some true)]⟩ : BasedReport)], r.path = [] ∧ r.prop = "A" ∧ r.other = "B" ∧
    Agrees r.scenario (fun _ => true) :=
  C93_unwanted_complete setOrder_eraseDups (by simp [exBasedThere]) exBasedThere_plain exBased_good exBasedThere_unwanted (rows := [exBasedRow])
    (s := exBasedRow) (by simp [exBasedSpecs]) (by simp) (exOne_deployment (.inl rfl) (fun _ => exBasedThere_cond) (by decide))
    (fun _ => exOne_noResources) ⟨.str "x", [], .str "x", by simp [exBasedThere], .here (by rintro ⟨_, h⟩; simp at h), .text rfl rfl⟩
    (by simp [exBasedRow]) (exBasedThere_has rfl)

/-- the hypotheses of `C93_unwanted_sound_partial` are met -/
example : ∀ σ, Agrees (some [(.str "C1", some true)]) σ → HasProp σ exBasedThere "B" :=
  C93_unwanted_sound_partial exOne_wf (by simp [exBasedThere]) exBasedThere_plain exBased_good exBasedThere_unwanted List.mem_cons_self
    (fun c hc => by
      have := exBasedThere_cond hc
      subst this
      exact ⟨_, true, rfl, rfl⟩) (.inl (by simp))

/-- a queue, and an element about its attribute and about references to it -/
def exBasedQueue : Val := .dict [(.str "Resources", .dict [(.str "Q", .dict [(.str "Type", .str "AWS::SQS::Queue")])])]

theorem exBasedQueue_typed : ResourceTyped exBasedQueue (.str "Q") (.str "AWS::SQS::Queue") :=
  ⟨_, _, _, rfl, List.mem_cons_self, List.mem_cons_self, List.mem_cons_self⟩

/-- the values of `C93_value` exist -/
example : Triggers exBasedQueue ⟨none, ["AWS::SQS::Queue"], [("AWS::SQS::Queue", "Arn")], []⟩ (.dict [(.str "Fn::GetAtt", .list [.str "Q", .str "Arn"])]) ∧
    Triggers exBasedQueue ⟨none, ["AWS::SQS::Queue"], [("AWS::SQS::Queue", "Arn")], []⟩ (.dict [(.str "Ref", .str "Q")]) :=
  ⟨.getAtt (.str _) exBasedQueue_typed List.mem_cons_self, .ref exBasedQueue_typed List.mem_cons_self⟩

/-- the hypotheses of `C93_unknown_raises` are met -/
example : basedOnValue exBasedQueue ⟨none, [], [("AWS::SQS::Queue", "Arn")], []⟩ (.dict [(.str "Fn::GetAtt", .list [.str "R", .str "Arn"])]) =
    .error (attrErr .none "get") :=
  C93_unknown_raises rfl (by simp) (by simp)

/-- the hypotheses of `C93_choice_missed` are met -/
example : basedCheck (fun _ s => s) List.eraseDups exOneTable (.dict exOne) true exBasedSpecs (.dict [(.str "Fn::If", .list [.str "C1", .dict exBasedThere, .dict exBasedThere])]) [] =
    .ok [] := C93_choice_missed setOrder_eraseDups exBased_good

end CfnLint
