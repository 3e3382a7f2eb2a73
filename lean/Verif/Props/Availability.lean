import Verif.Lemmas.PathConds
import Verif.Props.Conditions
/-
C31: availability of resources.
-/
namespace CfnLint
open Spec

/-- The conditions a question about `p` and a resource with condition `rc` is about. -/
def AskedFor (t : Val) (p : Path) (rc : String) (req : List Key) : Prop :=
  req.Nodup ∧ ∀ k, k ∈ req ↔ ∃ c, k = .str c ∧ (c = rc ∨ ∃ b, Requires t p c b)

/-- Under the scenario, whatever stands at `p` exists. -/
def ExistsIn (t : Val) (p : Path) (sc : Scenario) : Prop :=
  ∀ c b, Requires t p c b → dlookup (Key.str c) sc = some (some b)

/-- **C31**, in full: the scenarios reported are exactly those, among the scenarios of the conditions
involved, in which the reference exists and the resource's condition is not true. -/
def C31_statement : Prop := ∀ (enum : String → List String → List String) (tb : CondTable) (t : Val)
  (p : Path) (r : Key) (rc : String) (res : List Scenario),
  t.WF → GoodPath t p → EntryOk t "Resources" r → ResourceCondition t r rc →
  isResourceAvailable enum tb t p r = .ok res →
  ∃ req scs, AskedFor t p rc req ∧ getScenarios enum tb req = .ok scs ∧
    ∀ sc, sc ∈ res ↔ sc ∈ scs ∧ ExistsIn t p sc ∧ dlookup (Key.str rc) sc ≠ some (some true)

theorem value_str {sc : Scenario} {c : String} {b : Bool} :
    sc.value (.str c) = some b ↔ dlookup (Key.str c) sc = some (some b) := by
  simp only [Scenario.value, Val.toKey?]
  cases dlookup (Key.str c) sc with
  | none => simp
  | some x => simp

theorem resourceCondition_entry {t : Val} {r : Key} {rc : String} (hw : t.WF) (he : EntryOk t "Resources" r)
    (hrc : ResourceCondition t r rc) : entryCondition t "Resources" r = .ok (.str rc) := by
  obtain ⟨c, hc, ⟨_, hno⟩ | ⟨s, rfl, hyes⟩⟩ := entryCondition_spec hw he
  · exact absurd hrc.1 (hno _)
  · rw [hc]
    have := (hyes _).1 hrc.1
    rw [this]

/-- The computation, when the resource's condition is not met on the path. -/
theorem isResourceAvailable_free {enum : String → List String → List String} {tb : CondTable} {t : Val}
    {p : Path} {r : Key} {rc : String} (hw : t.WF) (hp : GoodPath t p) (he : EntryOk t "Resources" r)
    (hrc : ResourceCondition t r rc) (hfree : ∀ b, ¬ Requires t p rc b) :
    ∃ req conds, AskedFor t p rc req ∧ GoodConds conds ∧ (∀ v b, CondHas conds v b → ∃ c, v = .str c) ∧
      (∀ c b, CondHas conds (.str c) b ↔ Requires t p c b) ∧ (Val.str rc) ∉ conds.map Prod.fst ∧
      isResourceAvailable enum tb t p r =
        match getScenarios enum tb req with
        | .error e => .error e
        | .ok scs => .ok (scs.filter (fun sc => !(sc.value (.str rc) == some true) &&
            countHolding sc (dset (.str rc) [] conds) == conds.length)) := by
  obtain ⟨conds, hc, hg, hstr, hreq⟩ := pathConds_spec hw hp
  have hnot : (Val.str rc) ∉ conds.map Prod.fst := by
    intro hm
    obtain ⟨⟨k, bs⟩, hkv, hk⟩ := List.mem_map.1 hm
    simp only at hk
    subst hk
    obtain ⟨b, hb⟩ := List.exists_mem_of_ne_nil _ (hg.2 _ hkv)
    exact hfree b ((hreq rc b).1 ⟨bs, hkv, hb⟩)
  have hkeys : ∀ v ∈ (dset (Val.str rc) ([] : List Bool) conds).map Prod.fst, ∃ c, v = .str c := by
    intro v hv
    rw [dset_keys, if_neg hnot, List.mem_append, List.mem_singleton] at hv
    rcases hv with hv | rfl
    · obtain ⟨⟨k, bs⟩, hkv, hk⟩ := List.mem_map.1 hv
      simp only at hk
      subst hk
      obtain ⟨b, hb⟩ := List.exists_mem_of_ne_nil _ (hg.2 _ hkv)
      exact hstr _ b ⟨bs, hkv, hb⟩
    · exact ⟨rc, rfl⟩
  obtain ⟨ks, hks, heq, hmem⟩ := mapM_toKey hkeys
  refine ⟨ks, conds, ⟨?_, ?_⟩, hg, hstr, hreq, hnot, ?_⟩
  · have : (ks.map Key.toVal).Nodup := by
      rw [← heq]
      exact dset_nodup _ _ hg.1
    exact (List.pairwise_map.1 this).imp (fun h he => h (by rw [he]))
  · intro k
    rw [hmem, dset_keys, if_neg hnot, List.mem_append, List.mem_singleton]
    constructor
    · rintro (h | h)
      · obtain ⟨⟨v, bs⟩, hkv, hk⟩ := List.mem_map.1 h
        simp only at hk
        obtain ⟨b, hb⟩ := List.exists_mem_of_ne_nil _ (hg.2 _ hkv)
        obtain ⟨c, hc⟩ := hstr _ b ⟨bs, hkv, hb⟩
        subst hc
        refine ⟨c, ?_, .inr ⟨b, (hreq c b).1 ⟨bs, hkv, hb⟩⟩⟩
        cases k <;> simp [Key.toVal] at hk ⊢
        exact hk.symm
      · refine ⟨rc, ?_, .inl rfl⟩
        cases k <;> simp [Key.toVal] at h ⊢
        exact h
    · rintro ⟨c, rfl, rfl | ⟨b, hb⟩⟩
      · right; rfl
      · left
        obtain ⟨bs, hkv, _⟩ := (hreq c b).2 hb
        exact List.mem_map.2 ⟨_, hkv, rfl⟩
  · unfold isResourceAvailable
    rw [hc, resourceCondition_entry hw he hrc]
    have ht : (Val.str rc).truthy = true := by simp [Val.truthy, hrc.2]
    have hl : dlookup (Val.str rc) conds = none := dlookup_none_iff.2 hnot
    simp only [ht, if_true, hashName, hl, Option.getD_none, List.isEmpty_nil, scenariosFor, hks]
    cases getScenarios enum tb ks <;> rfl

theorem existsIn_iff {t : Val} {p : Path} {sc : Scenario} {conds : PathConds} (hg : GoodConds conds)
    (hstr : ∀ v b, CondHas conds v b → ∃ c, v = .str c)
    (hreq : ∀ c b, CondHas conds (.str c) b ↔ Requires t p c b)
    (hcon : ∀ c, ¬ (Requires t p c true ∧ Requires t p c false)) :
    (∀ kv ∈ conds, ∃ b, sc.value kv.1 = some b ∧ b ∈ kv.2) ↔ ExistsIn t p sc := by
  constructor
  · intro h c b hr
    obtain ⟨bs, hkv, hb⟩ := (hreq c b).2 hr
    obtain ⟨b', hv, hb'⟩ := h _ hkv
    have hr' := (hreq c b').1 ⟨bs, hkv, hb'⟩
    have : b' = b := by
      cases b with
      | true =>
        cases b' with
        | true => rfl
        | false => exact absurd ⟨hr, hr'⟩ (hcon c)
      | false =>
        cases b' with
        | true => exact absurd ⟨hr', hr⟩ (hcon c)
        | false => rfl
    subst this
    exact value_str.1 hv
  · rintro h ⟨v, bs⟩ hkv
    obtain ⟨b, hb⟩ := List.exists_mem_of_ne_nil _ (hg.2 _ hkv)
    obtain ⟨c, rfl⟩ := hstr v b ⟨bs, hkv, hb⟩
    exact ⟨b, value_str.2 (h c b ((hreq c b).1 ⟨bs, hkv, hb⟩)), hb⟩

/-- When the resource's condition is met on the path, whatever its value, nothing is reported. -/
theorem C31_met_on_path (enum : String → List String → List String) (tb : CondTable) (t : Val)
    (p : Path) (r : Key) (rc : String) (b : Bool) (hw : t.WF) (hp : GoodPath t p)
    (he : EntryOk t "Resources" r) (hrc : ResourceCondition t r rc) (hb : Requires t p rc b) :
    isResourceAvailable enum tb t p r = .ok [] := by
  obtain ⟨conds, hc, hg, hstr, hreq⟩ := pathConds_spec hw hp
  obtain ⟨bs, hkv, hbs⟩ := (hreq rc b).2 hb
  unfold isResourceAvailable
  rw [hc, resourceCondition_entry hw he hrc]
  have ht : (Val.str rc).truthy = true := by simp [Val.truthy, hrc.2]
  have hl : dlookup (Val.str rc) conds = some bs := dlookup_of_mem hg.1 hkv
  have hne : bs.isEmpty = false := by
    cases bs with
    | nil => cases hbs
    | cons _ _ => rfl
  simp only [ht, if_true, hashName, hl, Option.getD_some, hne, Bool.false_eq_true, if_false]

/-- **C31**, what holds: unless the reference stands in the *false* branch of the resource's own condition,
or in contradictory branches. Missing for the full statement: those two cases. -/
theorem C31_available_partial (enum : String → List String → List String) (tb : CondTable) (t : Val)
    (p : Path) (r : Key) (rc : String) (res : List Scenario) (hw : t.WF) (hp : GoodPath t p)
    (he : EntryOk t "Resources" r) (hrc : ResourceCondition t r rc)
    (hfalse : ¬ Requires t p rc false) (hcon : ∀ c, ¬ (Requires t p c true ∧ Requires t p c false))
    (hres : isResourceAvailable enum tb t p r = .ok res) :
    (Requires t p rc true ∧ res = [] ∧ ∀ sc : Scenario, ExistsIn t p sc → dlookup (Key.str rc) sc = some (some true)) ∨
    ∃ req scs, AskedFor t p rc req ∧ getScenarios enum tb req = .ok scs ∧
      ∀ sc, sc ∈ res ↔ sc ∈ scs ∧ ExistsIn t p sc ∧ dlookup (Key.str rc) sc ≠ some (some true) := by
  by_cases htrue : Requires t p rc true
  · left
    rw [C31_met_on_path enum tb t p r rc true hw hp he hrc htrue] at hres
    injection hres with hres
    exact ⟨htrue, hres.symm, fun sc h => h rc true htrue⟩
  · right
    have hfree : ∀ b, ¬ Requires t p rc b := by
      intro b; cases b
      · exact hfalse
      · exact htrue
    obtain ⟨req, conds, hask, hg, hstr, hreq, hnot, heq⟩ :=
      isResourceAvailable_free (enum := enum) (tb := tb) hw hp he hrc hfree
    rw [heq] at hres
    cases hs : getScenarios enum tb req with
    | error e => rw [hs] at hres; cases hres
    | ok scs =>
      rw [hs] at hres
      injection hres with hres
      subst hres
      refine ⟨req, scs, hask, hs, fun sc => ?_⟩
      rw [List.mem_filter, Bool.and_eq_true, countHolding_all hnot, existsIn_iff hg hstr hreq hcon]
      have : (!(sc.value (.str rc) == some true)) = true ↔ dlookup (Key.str rc) sc ≠ some (some true) := by
        rw [Bool.not_eq_true', beq_eq_false_iff_ne, ne_eq, ne_eq, value_str]
      rw [this]
      constructor
      · rintro ⟨h1, h2, h3⟩; exact ⟨h1, h3, h2⟩
      · rintro ⟨h1, h2, h3⟩; exact ⟨h1, h3, h2⟩

/-- **C31** A deployment (an assignment of the parameters) in which the reference exists but the resource
does not is always covered by a reported scenario, for at most four conditions or related ones that compare
expressions with literals. -/
theorem C31_deployment_covered_partial (H : Val → String) (fuel : Nat)
    (enum : String → List String → List String) (t : List (Key × Val)) (tb : CondTable) (σ : Val → String)
    (p : Path) (r : Key) (rc : String) (b : Key → Bool)
    (henum : Enumerates enum) (hw : (Val.dict t).WF) (hno : NoHashLiterals H (conditionsOf t))
    (hinit : Conditions.init H fuel (.dict t) = (tb, none)) (hσ : Respects H σ) (hperm : Permitted t σ)
    (hpl : PlainAllowed t) (hp : GoodPath (.dict t) p) (he : EntryOk (.dict t) "Resources" r)
    (hrc : ResourceCondition (.dict t) r rc)
    (hev : ∀ c, (c = rc ∨ ∃ x, Requires (.dict t) p c x) → ∃ v, dlookup (Key.str c) (conditionsOf t) = some v ∧
      Evals OneSided (conditionsOf t) σ v (b (.str c)))
    (hex : ∀ c x, Requires (.dict t) p c x → b (.str c) = x) (hgone : b (.str rc) = false)
    (hoff : ¬ Requires (.dict t) p rc false)
    (hsmall : ∀ req, AskedFor (.dict t) p rc req → req.length ≤ 4 ∨ Related (conditionsOf t) req) :
    ∃ res, isResourceAvailable enum tb (.dict t) p r = .ok res ∧ ∃ sc ∈ res,
      ∀ c, (c = rc ∨ ∃ x, Requires (.dict t) p c x) → dlookup (Key.str c) sc = some (some (b (.str c))) := by
  have hfree : ∀ x, ¬ Requires (.dict t) p rc x := by
    intro x hx
    have := hex rc x hx
    rw [hgone] at this
    subst this
    exact hoff hx
  have hcon : ∀ c, ¬ (Requires (.dict t) p c true ∧ Requires (.dict t) p c false) := by
    rintro c ⟨h1, h2⟩
    have := hex c _ h1
    rw [hex c _ h2] at this
    cases this
  obtain ⟨req, conds, hask, hg, hstr, hreq, hnot, heq⟩ :=
    isResourceAvailable_free (enum := enum) (tb := tb) hw hp he hrc hfree
  have hrc_mem : Key.str rc ∈ req := (hask.2 _).2 ⟨rc, rfl, .inl rfl⟩
  obtain ⟨scs, hscs, sc, hsc, hval⟩ := C22_complete_partial H fuel enum t tb σ req b henum hw hno hinit hσ hperm hpl
    (fun h => by rw [h] at hrc_mem; cases hrc_mem)
    (by
      intro k hk
      obtain ⟨c, rfl, hc⟩ := (hask.2 k).1 hk
      exact hev c hc)
    (hsmall req hask)
  rw [hscs] at heq
  refine ⟨_, heq, sc, ?_, ?_⟩
  · rw [List.mem_filter, Bool.and_eq_true, countHolding_all hnot, existsIn_iff hg hstr hreq hcon]
    refine ⟨hsc, ?_, ?_⟩
    · rw [Bool.not_eq_true', beq_eq_false_iff_ne, ne_eq, value_str, hval _ hrc_mem, hgone]
      simp
    · intro c x hr
      rw [hval (.str c) ((hask.2 _).2 ⟨c, rfl, .inr ⟨x, hr⟩⟩), hex c x hr]
  · intro c hc
    exact hval _ ((hask.2 _).2 ⟨c, rfl, hc⟩)

/-- **C31** Every scenario reported can occur: there is an assignment of the parameters under which the
reference exists and the resource does not, when the conditions involved are related and compare expressions
with literals. -/
theorem C31_report_real_partial (H : Val → String) (fuel : Nat)
    (enum : String → List String → List String) (t : List (Key × Val)) (tb : CondTable)
    (p : Path) (r : Key) (rc : String) (res : List Scenario)
    (hw : (Val.dict t).WF) (hno : NoHashLiterals H (conditionsOf t)) (href : RefsDistinct H)
    (hinit : Conditions.init H fuel (.dict t) = (tb, none)) (hpl : PlainAllowed t)
    (hp : GoodPath (.dict t) p) (he : EntryOk (.dict t) "Resources" r) (hrc : ResourceCondition (.dict t) r rc)
    (hev : ∀ c, (c = rc ∨ ∃ x, Requires (.dict t) p c x) → ∃ v, dlookup (Key.str c) (conditionsOf t) = some v ∧
      WellFormed (conditionsOf t) v)
    (hcon : ∀ c, ¬ (Requires (.dict t) p c true ∧ Requires (.dict t) p c false))
    (hrel : ∀ req, AskedFor (.dict t) p rc req → Related (conditionsOf t) req)
    (hres : isResourceAvailable enum tb (.dict t) p r = .ok res) :
    ∀ sc ∈ res, ∃ σ, Respects H σ ∧ Permitted t σ ∧
      (∃ v, dlookup (Key.str rc) (conditionsOf t) = some v ∧ Evals OneSided (conditionsOf t) σ v false) ∧
      ∀ c x, Requires (.dict t) p c x →
        ∃ v, dlookup (Key.str c) (conditionsOf t) = some v ∧ Evals OneSided (conditionsOf t) σ v x := by
  intro sc hsc
  have hfree : ∀ x, ¬ Requires (.dict t) p rc x := by
    intro x hx
    rw [C31_met_on_path enum tb _ p r rc x hw hp he hrc hx] at hres
    injection hres with hres
    subst hres
    cases hsc
  obtain ⟨req, conds, hask, hg, hstr, hreq, hnot, heq⟩ :=
    isResourceAvailable_free (enum := enum) (tb := tb) hw hp he hrc hfree
  rw [heq] at hres
  cases hs : getScenarios enum tb req with
  | error e => rw [hs] at hres; cases hres
  | ok scs =>
    rw [hs] at hres
    injection hres with hres
    subst hres
    rw [List.mem_filter, Bool.and_eq_true, countHolding_all hnot, existsIn_iff hg hstr hreq hcon,
      Bool.not_eq_true', beq_eq_false_iff_ne, ne_eq, value_str] at hsc
    obtain ⟨hm, hnt, hex⟩ := hsc
    obtain ⟨σ, h1, h2, h3⟩ := C23_sound_partial H fuel enum t tb req scs hw hno href hinit hpl
      (by
        intro k hk
        obtain ⟨c, rfl, hc⟩ := (hask.2 k).1 hk
        exact hev c hc)
      (hrel req hask) hs sc hm
    refine ⟨σ, h1, h2, ?_, ?_⟩
    · obtain ⟨v, b, hv, hb, hl⟩ := h3 (.str rc) ((hask.2 _).2 ⟨rc, rfl, .inl rfl⟩)
      cases b
      · exact ⟨v, hv, hb⟩
      · exact absurd hl hnt
    · intro c x hx
      obtain ⟨v, b, hv, hb, hl⟩ := h3 (.str c) ((hask.2 _).2 ⟨c, rfl, .inr ⟨x, hx⟩⟩)
      rw [hex c x hx] at hl
      injection hl with hl
      injection hl with hl
      subst hl
      exact ⟨v, hv, hb⟩

/-! ### Witnesses -/

/-- following a path -/
def follow : Val → Path → Option Val
  | v, [] => some v
  | v, k :: p =>
    match v, k with
    | .dict kvs, k => (dlookup k kvs).elim none (fun c => follow c p)
    | .list xs, .int (.ofNat i) => (xs[i]?).elim none (fun c => follow c p)
    | _, _ => none

theorem follow_at : ∀ {p : Path} {t w : Val}, t.WF → (At t p w ↔ follow t p = some w)
  | [], t, w, _ => by
    rw [at_nil, follow, Option.some.injEq]
  | k :: p, t, w, hw => by
    rw [at_cons]
    cases t with
    | dict kvs =>
      rw [follow]
      constructor
      · rintro ⟨c, hc, hp⟩
        have hc' := hc
        cases hc with
        | key hm hh =>
          cases hh
          rw [dlookup_of_mem hw.1 hm]
          exact (follow_at (at_wf hc' hw)).1 hp
      · intro h
        cases hl : dlookup k kvs with
        | none => rw [hl] at h; cases h
        | some c =>
          rw [hl] at h
          have hc : At (.dict kvs) [k] c := .key (dlookup_mem hl) .here
          exact ⟨c, hc, (follow_at (at_wf hc hw)).2 h⟩
    | list xs =>
      constructor
      · rintro ⟨c, hc, hp⟩
        have hc' := hc
        cases hc with
        | @idx _ i _ _ _ hx hh =>
          cases hh
          have : (Key.int (i : Int)) = .int (.ofNat i) := rfl
          rw [this, follow, hx]
          exact (follow_at (at_wf hc' hw)).1 hp
      · intro h
        cases k with
        | str s => simp [follow] at h
        | int i =>
          cases i with
          | negSucc n => simp [follow] at h
          | ofNat i =>
            rw [follow] at h
            cases hx : xs[i]? with
            | none => rw [hx] at h; cases h
            | some c =>
              rw [hx] at h
              have hc : At (.list xs) [.int (.ofNat i)] c := .idx hx .here
              exact ⟨c, hc, (follow_at (at_wf hc hw)).2 h⟩
    | _ =>
      constructor
      · rintro ⟨c, hc, _⟩
        cases hc
      · intro h
        simp [follow] at h

/-- `EntryOk`, tested -/
def entryOkB (t : Val) (sec : String) (name : Key) : Bool :=
  match follow t [.str sec] with
  | some (.dict s) =>
    match dlookup name s with
    | some (.dict kvs) =>
      match dlookup (Key.str "Condition") kvs with
      | some c => c.isStr
      | none => true
    | _ => false
  | _ => false

theorem entryOk_of_B {t : Val} {sec : String} {name : Key} (hw : t.WF) (h : entryOkB t sec name = true) :
    EntryOk t sec name := by
  unfold entryOkB at h
  split at h
  · rename_i s hs
    have hat := (follow_at hw).2 hs
    have hws := at_wf hat hw
    split at h
    · rename_i kvs hk
      have hwk : (Val.dict kvs).WF := wfDict_at (kv := (name, .dict kvs)) hws.2 (dlookup_mem hk)
      refine ⟨s, kvs, hat, dlookup_mem hk, ?_⟩
      intro c hc
      rw [dlookup_of_mem hwk.1 hc] at h
      simp only at h
      cases c <;> simp [Val.isStr] at h ⊢
    · cases h
  · cases h

/-- `GoodPath`, tested -/
def goodPathB (t : Val) (p : Path) : Bool :=
  !p.isEmpty && (follow t p.dropLast).isSome && !(p.getLast? == some (.str "Fn::If")) &&
  (List.range p.length).all (fun i =>
    !(p[i]? == some (.str "Fn::If")) || (match follow t (p.take (i + 1)) with
      | some (.list [c, _, _]) => c.isStr
      | _ => true)) &&
  (match p with
    | .str sec :: name :: _ => !(sec == "Resources" || sec == "Outputs") || entryOkB t sec name
    | _ => true)

theorem goodPath_of_B {t : Val} {p : Path} (hw : t.WF) (h : goodPathB t p = true) : GoodPath t p := by
  unfold goodPathB at h
  simp only [Bool.and_eq_true] at h
  obtain ⟨⟨⟨⟨h1, h2⟩, h3⟩, h4⟩, h5⟩ := h
  refine ⟨?_, ?_, ?_, ?_, ?_⟩
  · rintro rfl; simp at h1
  · obtain ⟨u, hu⟩ := Option.isSome_iff_exists.1 h2
    exact ⟨u, (follow_at hw).2 hu⟩
  · intro he
    rw [he] at h3
    simp at h3
  · rintro q c a b ⟨s, hs⟩ hat
    have hlen : q.length < p.length := by rw [← hs]; simp
    have := List.all_eq_true.1 h4 q.length (List.mem_range.2 hlen)
    have hget : p[q.length]? = some (.str "Fn::If") := by rw [← hs]; simp
    have htake : p.take (q.length + 1) = q ++ [.str "Fn::If"] := by
      rw [← hs, List.take_append_of_le_length (by simp), List.take_of_length_le (by simp)]
    rw [hget, htake, (follow_at hw).1 hat] at this
    simp at this
    cases c <;> simp [Val.isStr] at this ⊢
  · rintro sec name r rfl hs
    simp only [Bool.or_eq_true, Bool.not_eq_true'] at h5
    rcases h5 with h5 | h5
    · rcases hs with rfl | rfl <;> simp at h5
    · exact entryOk_of_B hw h5

/-- The resource `A` has the condition `C`; the output `O` refers to `A` where `C` is false. -/
def exOff : Val := .dict [
  (.str "Resources", .dict [(.str "A", .dict [(.str "Condition", .str "C")])]),
  (.str "Outputs", .dict [(.str "O", .dict [(.str "Value",
    fnIf (.str "C") (.str "x") (.dict [(.str "Ref", .str "A")]))])])]

/-- One condition `C` about which nothing is known. -/
def exTable : CondTable :=
  { conds := [(.str "C", (.cond [] [] [] none, [])), (.str "D", (.cond [] [] [] none, []))] }

theorem asked_single {t : Val} {p : Path} {rc : String} {req : List Key} (h : AskedFor t p rc req)
    (ho : ∀ c b, Requires t p c b → c = rc) : req = [.str rc] := by
  have hm : ∀ k, k ∈ req ↔ k = .str rc := by
    intro k
    rw [h.2]
    constructor
    · rintro ⟨c, rfl, rfl | ⟨b, hb⟩⟩
      · rfl
      · rw [ho c b hb]
    · rintro rfl; exact ⟨rc, rfl, .inl rfl⟩
  cases req with
  | nil => exact absurd ((hm (.str rc)).2 rfl) (by simp)
  | cons k req =>
    have hk := (hm k).1 List.mem_cons_self
    subst hk
    cases req with
    | nil => rfl
    | cons k2 req =>
      have hk2 := (hm k2).1 (List.mem_cons_of_mem _ List.mem_cons_self)
      subst hk2
      have := h.1
      simp at this

theorem exOff_wf : exOff.WF := by simp [exOff, fnIf, Val.WF, Val.WFDict, Val.WFList]

/-- the path of the reference -/
def exOffPath : Path := [.str "Outputs", .str "O", .str "Value", .str "Fn::If", .int 2, .str "Ref"]

/-- what a path requires, computed -/
theorem requires_pathConds {t : Val} {p : Path} {r : PathConds} (hw : t.WF) (hp : GoodPath t p)
    (hr : pathConds t p = .ok r) (c : String) (b : Bool) : Requires t p c b ↔ b ∈ (dlookup (Val.str c) r).getD [] := by
  obtain ⟨r', hr', hg, _, hreq⟩ := pathConds_spec hw hp
  rw [hr] at hr'
  injection hr' with hr'
  subst hr'
  rw [← hreq, condHas_iff hg.1]

/-- The reference exists only when the resource does not, yet it is called available. -/
theorem C31_false_branch_violated : ¬ C31_statement := by
  intro h
  have hp : GoodPath exOff exOffPath := goodPath_of_B exOff_wf (by decide)
  have hreq : ∀ c b, Requires exOff exOffPath c b ↔ c = "C" ∧ b = false := by
    intro c b
    rw [requires_pathConds (r := [(.str "C", [false])]) exOff_wf hp (by decide)]
    simp only [dlookup]
    by_cases hc : c = "C"
    · subst hc; simp
    · rw [if_neg (by simpa using fun h => hc h.symm)]
      simp [hc]
  obtain ⟨req, scs, hask, hscs, hiff⟩ := h (fun _ s => s) exTable exOff exOffPath (.str "A") "C" [] exOff_wf hp
    (entryOk_of_B exOff_wf (by decide)) ⟨(follow_at exOff_wf).2 (by decide), by decide⟩ (by decide)
  have hr := asked_single hask (fun c b hb => ((hreq c b).1 hb).1)
  subst hr
  have hs : getScenarios (fun _ s => s) exTable [.str "C"] = .ok [[(.str "C", some true)], [(.str "C", some false)]] := by
    decide
  rw [hs] at hscs
  injection hscs with hscs
  subst hscs
  have := (hiff [(.str "C", some false)]).2 ⟨by simp, ?_, by decide⟩
  · cases this
  · intro c b hb
    obtain ⟨rfl, rfl⟩ := (hreq c b).1 hb
    rfl

/-- The resource `A` has the condition `C`; the reference stands in both branches of `D`, so it never exists. -/
def exBoth : Val := .dict [
  (.str "Resources", .dict [(.str "A", .dict [(.str "Condition", .str "C")])]),
  (.str "Outputs", .dict [(.str "O", .dict [(.str "Value",
    fnIf (.str "D") (fnIf (.str "D") (.str "x") (.dict [(.str "Ref", .str "A")])) (.str "y"))])])]

theorem exBoth_wf : exBoth.WF := by simp [exBoth, fnIf, Val.WF, Val.WFDict, Val.WFList]

/-- the path of the reference -/
def exBothPath : Path :=
  [.str "Outputs", .str "O", .str "Value", .str "Fn::If", .int 1, .str "Fn::If", .int 2, .str "Ref"]

/-- A reference that never exists is reported. -/
theorem C31_contradiction_violated : ¬ C31_statement := by
  intro h
  have hp : GoodPath exBoth exBothPath := goodPath_of_B exBoth_wf (by decide)
  have hreq : ∀ c b, Requires exBoth exBothPath c b ↔ c = "D" := by
    intro c b
    rw [requires_pathConds (r := [(.str "D", [true, false])]) exBoth_wf hp (by decide)]
    simp only [dlookup]
    by_cases hc : c = "D"
    · subst hc; simp
    · rw [if_neg (by simpa using fun h => hc h.symm)]
      simp [hc]
  obtain ⟨req, scs, hask, hscs, hiff⟩ := h (fun _ s => s) exTable exBoth exBothPath (.str "A") "C"
    [[(.str "D", some true), (.str "C", some false)], [(.str "D", some false), (.str "C", some false)]] exBoth_wf hp
    (entryOk_of_B exBoth_wf (by decide)) ⟨(follow_at exBoth_wf).2 (by decide), by decide⟩ (by decide)
  obtain ⟨_, hex, _⟩ := (hiff [(.str "D", some true), (.str "C", some false)]).1 (by simp)
  have := hex "D" false ((hreq _ _).2 rfl)
  revert this
  decide

/-- The resource `A` has the condition `C`; the output `O` with the condition `D` refers to `A`. -/
def exOther : Val := .dict [
  (.str "Resources", .dict [(.str "A", .dict [(.str "Condition", .str "C")])]),
  (.str "Outputs", .dict [(.str "O", .dict [(.str "Condition", .str "D"),
    (.str "Value", .dict [(.str "Ref", .str "A")])])])]

example : exOther.WF ∧ goodPathB exOther [.str "Outputs", .str "O", .str "Value", .str "Ref"] = true ∧
    entryOkB exOther "Resources" (.str "A") = true ∧
    isResourceAvailable (fun _ s => s) exTable exOther [.str "Outputs", .str "O", .str "Value", .str "Ref"] (.str "A") =
      .ok [[(.str "D", some true), (.str "C", some false)]] :=
  ⟨by simp [exOther, Val.WF, Val.WFDict], by decide, by decide, by decide⟩

end CfnLint
