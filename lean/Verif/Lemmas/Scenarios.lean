import Verif.Lemmas.CondSem
namespace CfnLint
open Spec

/-! ### Enough fuel -/

theorem mkEquals_noPy {H : Val → String} {v : Val} {e : PyErr} : mkEquals H v ≠ .error (.py e) := by
  have key : ∀ v, mkEqV H v ≠ .error (.py e) := by
    intro v
    cases v <;> simp only [mkEqV, ne_eq, reduceCtorEq, not_false_eq_true, Except.error.injEq]
    split <;> simp
  unfold mkEquals
  split
  · next a b =>
    cases ha : mkEqV H a with
    | error x => simp only [ne_eq, Except.error.injEq]; rintro rfl; exact key a ha
    | ok l =>
      cases hb : mkEqV H b with
      | error x => simp only [ne_eq, Except.error.injEq]; rintro rfl; exact key b hb
      | ok r => simp
  · simp

theorem processItems_noRec {H : Val → String} {tmpl : Val} {rec : Val → ParseOut} :
    ∀ (vs : List Val) (infl : Infl) (acc : List CObj),
    (∀ v ∈ vs, ∃ k w, v = .dict [(k, w)] ∧ itemStep H tmpl rec k w ≠ .error (.py .recursionError)) →
    (processItems H tmpl rec vs infl acc).2 ≠ .error (.py .recursionError) := by
  intro vs
  induction vs with
  | nil => intro infl acc _; simp [processItems]
  | cons v vs ih =>
    intro infl acc h
    obtain ⟨k, w, rfl, hs⟩ := h v List.mem_cons_self
    rw [processItems_step]
    cases hi : itemStep H tmpl rec k w with
    | error e =>
      simp only
      intro he
      rw [hi] at hs
      injection he with he
      exact hs (by rw [he])
    | ok og => exact ih _ _ (fun x hx => h x (List.mem_cons_of_mem _ hx))

theorem list_max {α : Type} {P : α → Nat → Prop} : ∀ (l : List α), (∀ v ∈ l, ∃ n0, ∀ n ≥ n0, P v n) →
    ∃ n0, ∀ n ≥ n0, ∀ v ∈ l, P v n := by
  intro l
  induction l with
  | nil => intro _; exact ⟨0, by simp⟩
  | cons a as ih =>
    intro h
    obtain ⟨n1, h1⟩ := h a List.mem_cons_self
    obtain ⟨n2, h2⟩ := ih (fun v hv => h v (List.mem_cons_of_mem _ hv))
    refine ⟨max n1 n2, ?_⟩
    intro n hn v hv
    rcases List.mem_cons.1 hv with rfl | hv
    · exact h1 n (by omega)
    · exact h2 n (by omega) v hv

/-- the parse of `v` stays within the recursion limit `n` -/
def NoRec (H : Val → String) (tmpl : Val) (v : Val) (n : Nat) : Prop :=
  (processCondition H tmpl n v).2 ≠ .error (.py .recursionError) ∧
  ∃ k w, v = .dict [(k, w)] ∧
    itemStep H tmpl (processCondition H tmpl n) k w ≠ .error (.py .recursionError)

theorem noRec_of {H : Val → String} {tmpl : Val} {k : Key} {w : Val} {n : Nat}
    (h1 : k ≠ .str "Fn::Equals") (h2 : k ≠ .str "Condition")
    (h : (processCondition H tmpl n (.dict [(k, w)])).2 ≠ .error (.py .recursionError)) :
    NoRec H tmpl (.dict [(k, w)]) n := by
  refine ⟨h, k, w, rfl, ?_⟩
  unfold itemStep
  rw [if_neg h1, if_neg h2]
  rcases hr : processCondition H tmpl n (.dict [(k, w)]) with ⟨i, r⟩
  rw [hr] at h
  simp only at h
  cases r with
  | ok p => simp [finishCondition]
  | error e =>
    cases e with
    | parse => simp [finishCondition]
    | py e => simpa [finishCondition] using h

theorem map_noRec {α β : Type} {r : Except CErr α} {f : α → β}
    (h : r ≠ .error (.py .recursionError)) : r.map f ≠ .error (.py .recursionError) := by
  cases r with
  | ok a => simp [Except.map]
  | error e => simpa [Except.map] using h

/-- A condition with a truth value is parsed within some recursion limit. -/
theorem enough_fuel {H : Val → String} {P : Val → Val → Prop} {t conds : List (Key × Val)}
    {σ : Val → String} (ht : dlookup (Key.str "Conditions") t = some (.dict conds)) {v : Val} {b : Bool}
    (h : Evals P conds σ v b) : ∃ n0, ∀ n ≥ n0, NoRec H (.dict t) v n := by
  induction h with
  | @equals a b x y hp ha hb =>
    refine ⟨1, ?_⟩
    intro n hn
    obtain ⟨m, rfl⟩ : ∃ m, n = m + 1 := ⟨n - 1, by omega⟩
    constructor
    · simp only [processCondition]
      rw [if_neg (by simp), if_neg (by simp), if_neg (by simp), if_pos trivial]
      cases he : mkEquals H (.list [a, b]) with
      | error e => simp only [ne_eq, Except.error.injEq]; rintro rfl; exact mkEquals_noPy he
      | ok e => simp
    · refine ⟨_, _, rfl, ?_⟩
      unfold itemStep
      rw [if_pos rfl]
      cases he : mkEquals H (.list [a, b]) with
      | error e => simp only [ne_eq, Except.error.injEq]; rintro rfl; exact mkEquals_noPy he
      | ok e => simp
  | @and vs f hne hvs ih =>
    obtain ⟨n0, hn0⟩ := list_max vs ih
    refine ⟨n0 + 1, ?_⟩
    intro n hn
    obtain ⟨m, rfl⟩ : ∃ m, n = m + 1 := ⟨n - 1, by omega⟩
    refine noRec_of (by simp) (by simp) ?_
    simp only [processCondition, processFunction, pyIterVal, if_true]
    exact map_noRec (processItems_noRec _ _ _ (fun v hv => (hn0 m (by omega) v hv).2))
  | @or vs f hne hvs ih =>
    obtain ⟨n0, hn0⟩ := list_max vs ih
    refine ⟨n0 + 1, ?_⟩
    intro n hn
    obtain ⟨m, rfl⟩ : ∃ m, n = m + 1 := ⟨n - 1, by omega⟩
    refine noRec_of (by simp) (by simp) ?_
    simp only [processCondition, processFunction, pyIterVal]
    rw [if_neg (by simp), if_pos trivial]
    exact map_noRec (processItems_noRec _ _ _ (fun v hv => (hn0 m (by omega) v hv).2))
  | @not v b hv ih =>
    obtain ⟨n0, hn0⟩ := ih
    refine ⟨n0 + 1, ?_⟩
    intro n hn
    obtain ⟨m, rfl⟩ : ∃ m, n = m + 1 := ⟨n - 1, by omega⟩
    refine noRec_of (by simp) (by simp) ?_
    simp only [processCondition, processFunction, pyIterVal]
    rw [if_neg (by simp), if_neg (by simp), if_pos trivial]
    refine map_noRec (processItems_noRec _ _ _ (fun w hw => ?_))
    rw [List.mem_singleton] at hw
    subst hw
    exact (hn0 m (by omega)).2
  | @named name v b hl hv ih =>
    obtain ⟨n0, hn0⟩ := ih
    have hlk := lookup_named ht hl
    refine ⟨n0 + 1, ?_⟩
    intro n hn
    obtain ⟨m, rfl⟩ : ∃ m, n = m + 1 := ⟨n - 1, by omega⟩
    constructor
    · have := (hn0 m (by omega)).1
      simp only [processCondition, hlk]
      rw [if_neg (by simp), if_neg (by simp), if_neg (by simp), if_neg (by simp), if_pos trivial]
      rcases hr : processCondition H (.dict t) m v with ⟨i, r⟩
      rw [hr] at this
      split
      · simp
      · exact this
    · refine ⟨_, _, rfl, ?_⟩
      have := (hn0 (m + 1) (by omega)).1
      unfold itemStep
      rw [if_neg (by simp), if_pos rfl]
      simp only [condByName, hlk]
      rcases hr : processCondition H (.dict t) (m + 1) v with ⟨i, r⟩
      rw [hr] at this
      simp only at this
      cases r with
      | ok p => simp [finishCondition]
      | error e =>
        cases e with
        | parse => simp [finishCondition]
        | py e => simpa [finishCondition] using this

/-! ### Loading -/

theorem loadConds_ok {H : Val → String} {tmpl : Val} {fuel : Nat} : ∀ (keys : List Key)
    (acc cs : List (Key × (CObj × Infl))),
    loadConds H tmpl fuel (keys.map Key.toVal) acc = (cs, none) →
    ∀ c, (c ∈ keys → ∃ r, condByName (processCondition H tmpl fuel) tmpl c.toVal = .ok r ∧
        dlookup c cs = some r) ∧
      (c ∉ keys → dlookup c cs = dlookup c acc) := by
  intro keys
  induction keys with
  | nil =>
    intro acc cs h c
    simp only [List.map_nil, loadConds, Prod.mk.injEq, and_true] at h
    subst h
    simp
  | cons k ks ih =>
    intro acc cs h c
    rw [List.map_cons, loadConds] at h
    cases hc : condByName (processCondition H tmpl fuel) tmpl k.toVal with
    | error e => rw [hc] at h; simp at h
    | ok r =>
      rw [hc] at h
      have h' : loadConds H tmpl fuel (ks.map Key.toVal) (dset k r acc) = (cs, none) := by
        cases k with
        | str s => exact h
        | int i => exact h
      have := ih _ _ h' c
      constructor
      · intro hm
        by_cases hks : c ∈ ks
        · exact this.1 hks
        · have hck : c = k := by
            rcases List.mem_cons.1 hm with h | h
            · exact h
            · exact absurd h hks
          subst hck
          refine ⟨r, hc, ?_⟩
          rw [this.2 hks, dlookup_dset, if_pos rfl]
      · intro hm
        rw [List.mem_cons, not_or] at hm
        rw [this.2 hm.2, dlookup_dset, if_neg (fun e => hm.1 e.symm)]

/-- Whatever happens, a loaded condition was parsed from the template. -/
theorem loadConds_sound {H : Val → String} {tmpl : Val} {fuel : Nat} : ∀ (names : List Val)
    (acc cs : List (Key × (CObj × Infl))) (e : Option PyErr),
    loadConds H tmpl fuel names acc = (cs, e) →
    ∀ c r, dlookup c cs = some r → dlookup c acc = some r ∨
      ∃ name, condByName (processCondition H tmpl fuel) tmpl name = .ok r := by
  intro keys
  induction keys with
  | nil =>
    intro acc cs e h c r hc
    simp only [loadConds, Prod.mk.injEq] at h
    rw [h.1]
    exact .inl hc
  | cons k ks ih =>
    intro acc cs e h c r hr
    rw [loadConds] at h
    cases hc : condByName (processCondition H tmpl fuel) tmpl k with
    | error e => rw [hc] at h; simp only [Prod.mk.injEq] at h; rw [h.1]; exact .inl hr
    | ok r' =>
      rw [hc] at h
      have step : ∀ k' : Key, loadConds H tmpl fuel ks (dset k' r' acc) = (cs, e) →
          dlookup c acc = some r ∨ ∃ name, condByName (processCondition H tmpl fuel) tmpl name = .ok r := by
        intro k' h'
        rcases ih _ _ _ h' c r hr with h | h
        · rw [dlookup_dset] at h
          split at h
          · simp only [Option.some.injEq] at h; subst h; exact .inr ⟨k, hc⟩
          · exact .inl h
        · exact .inr h
      cases k with
      | str s => exact step _ h
      | int i => exact step _ h
      | _ => exact ih _ _ _ h c r hr

theorem loadParams_sound {H : Val → String} : ∀ (ps : List (Key × Val)) (acc out : List (String × List Val)),
    (ps.map Prod.fst).Nodup → loadParams H ps acc = (out, none) → ∀ h vals, dlookup h out = some vals →
    dlookup h acc = some vals ∨ ∃ p body, h = H (refTo p) ∧ dlookup p ps = some (.dict body) ∧
      dlookup (Key.str "AllowedValues") body = some (.list vals) := by
  intro ps
  induction ps with
  | nil =>
    intro acc out _ h k vals hk
    simp only [loadParams, Prod.mk.injEq, and_true] at h
    subst h
    exact .inl hk
  | cons kv rest ih =>
    intro acc out hn h k vals hk
    obtain ⟨p, body⟩ := kv
    simp only [List.map_cons, List.nodup_cons] at hn
    have lift : (∃ q b, k = H (refTo q) ∧ dlookup q rest = some (.dict b) ∧
        dlookup (Key.str "AllowedValues") b = some (.list vals)) →
        ∃ q b, k = H (refTo q) ∧ dlookup q ((p, body) :: rest) = some (.dict b) ∧
        dlookup (Key.str "AllowedValues") b = some (.list vals) := by
      rintro ⟨q, b, h1, h2, h3⟩
      refine ⟨q, b, h1, ?_, h3⟩
      rw [dlookup, if_neg, h2]
      rintro rfl
      exact hn.1 (List.mem_map.2 ⟨_, dlookup_mem h2, rfl⟩)
    rw [loadParams] at h
    cases hb : body.getD "AllowedValues" .none with
    | error e => rw [hb] at h; simp at h
    | ok v =>
      rw [hb] at h
      by_cases hv : ∃ l, v = .list l
      · obtain ⟨l, rfl⟩ := hv
        simp only at h
        rcases ih _ _ hn.2 h k vals hk with h' | h'
        · rw [dlookup_dset] at h'
          split at h'
          · next he =>
            simp only [Option.some.injEq] at h'
            subst h'
            right
            cases body with
            | dict b =>
              rw [getD_dict] at hb
              refine ⟨p, b, he.symm, by simp [dlookup], ?_⟩
              cases hl : dlookup (Key.str "AllowedValues") b with
              | none => rw [hl] at hb; simp at hb
              | some w => rw [hl] at hb; simpa using hb
            | _ => simp [Val.getD] at hb
          · exact .inl h'
        · exact .inr (lift h')
      · have h' : loadParams H rest acc = (out, none) := by
          cases v with
          | list l => exact absurd ⟨l, rfl⟩ hv
          | _ => exact h
        rcases ih _ _ hn.2 h' k vals hk with h' | h'
        · exact .inl h'
        · exact .inr (lift h')

theorem loadParams_complete {H : Val → String} : ∀ (ps : List (Key × Val))
    (acc out : List (String × List Val)), loadParams H ps acc = (out, none) →
    (∀ h, (dlookup h acc).isSome → (dlookup h out).isSome) ∧
    ∀ p body vals, (p, Val.dict body) ∈ ps → dlookup (Key.str "AllowedValues") body = some (.list vals) →
      (dlookup (H (refTo p)) out).isSome := by
  intro ps
  induction ps with
  | nil =>
    intro acc out h
    simp only [loadParams, Prod.mk.injEq, and_true] at h
    subst h
    exact ⟨fun _ h => h, by simp⟩
  | cons kv rest ih =>
    intro acc out h
    obtain ⟨p, body⟩ := kv
    rw [loadParams] at h
    cases hb : body.getD "AllowedValues" .none with
    | error e => rw [hb] at h; simp at h
    | ok v =>
      rw [hb] at h
      by_cases hv : ∃ l, v = .list l
      · obtain ⟨l, rfl⟩ := hv
        simp only at h
        obtain ⟨h1, h2⟩ := ih _ _ h
        have h1' : ∀ k, (dlookup k acc).isSome → (dlookup k out).isSome := by
          intro k hk
          refine h1 k ?_
          rw [dlookup_dset]
          split
          · rfl
          · exact hk
        refine ⟨h1', ?_⟩
        intro q b vals hq hvs
        rcases List.mem_cons.1 hq with hq | hq
        · injection hq with hq1 hq2
          subst hq1
          exact h1 _ (by rw [dlookup_dset]; simp [refTo])
        · exact h2 q b vals hq hvs
      · have h' : loadParams H rest acc = (out, none) := by
          cases v with
          | list l => exact absurd ⟨l, rfl⟩ hv
          | _ => exact h
        obtain ⟨h1, h2⟩ := ih _ _ h'
        refine ⟨h1, ?_⟩
        intro q b vals hq hvs
        rcases List.mem_cons.1 hq with hq | hq
        · injection hq with hq1 hq2
          rw [← hq2, getD_dict, hvs] at hb
          simp at hb
          exact absurd ⟨vals, hb.symm⟩ hv
        · exact h2 q b vals hq hvs

/-! ### Merging the influences of the requested conditions -/

theorem matchInfl_eq : ∀ (child m : Infl) (hit : Bool), (matchInfl child m hit).1 = inflMerge child m := by
  intro child
  induction child with
  | nil => intro m hit; rfl
  | cons kv rest ih => intro m hit; rw [matchInfl]; simp only [ih]; rfl

theorem matchInfl_hit : ∀ (child m : Infl) (hit : Bool),
    (hit = true → (matchInfl child m hit).2 = true) ∧
    (∀ h x, h ∈ child.map Prod.fst → InInfl m h x → (matchInfl child m hit).2 = true) := by
  intro child
  induction child with
  | nil => intro m hit; simp [matchInfl]
  | cons kv rest ih =>
    intro m hit
    obtain ⟨k, vs⟩ := kv
    rw [matchInfl]
    constructor
    · intro h
      refine (ih _ _).1 ?_
      split <;> simp [h]
    · intro h x hm hx
      simp only [List.map_cons, List.mem_cons] at hm
      rcases hm with rfl | hm
      · refine (ih _ _).1 ?_
        unfold InInfl at hx
        rw [if_neg]
        simp only [List.isEmpty_iff]
        exact List.ne_nil_of_mem hx
      · exact (ih _ _).2 h x hm (inInfl_inflAdd.2 (.inr hx))

theorem matchLoop_none {t : CondTable} : ∀ (req : List Key) (m : Infl) (hit : Bool),
    matchLoop t req m hit = none ↔ ∃ c ∈ req, dlookup c t.conds = none := by
  intro req
  induction req with
  | nil => intro m hit; simp [matchLoop]
  | cons c rest ih =>
    intro m hit
    rw [matchLoop]
    cases hc : dlookup c t.conds with
    | none => simp [hc]
    | some oi => obtain ⟨o, i⟩ := oi; simp [ih, hc]

theorem matchLoop_some {H : Val → String} {t : CondTable} (ht : ∀ c r, dlookup c t.conds = some r → InflWF H r.2) :
    ∀ (req : List Key) (m : Infl) (hit : Bool) (m' : Infl) (hit' : Bool),
    matchLoop t req m hit = some (m', hit') → InflWF H m →
    InflWF H m' ∧
    (∀ h x, InInfl m' h x ↔ InInfl m h x ∨ ∃ c ∈ req, ∃ o i, dlookup c t.conds = some (o, i) ∧ InInfl i h x) ∧
    (hit = true → hit' = true) ∧
    (∀ h x c o i, InInfl m h x → c ∈ req → dlookup c t.conds = some (o, i) → InInfl i h x → hit' = true) := by
  intro req
  induction req with
  | nil =>
    intro m hit m' hit' h hw
    simp only [matchLoop, Option.some.injEq, Prod.mk.injEq] at h
    obtain ⟨rfl, rfl⟩ := h
    exact ⟨hw, by simp, id, by simp⟩
  | cons c rest ih =>
    intro m hit m' hit' h hw
    rw [matchLoop] at h
    cases hc : dlookup c t.conds with
    | none => rw [hc] at h; simp at h
    | some oi =>
      obtain ⟨o, i⟩ := oi
      rw [hc] at h
      simp only at h
      have hi : InflWF H i := ht c _ hc
      have hw' : InflWF H (matchInfl i m hit).1 := by rw [matchInfl_eq]; exact inflWF_merge hi hw
      obtain ⟨h1, h2, h3, h4⟩ := ih _ _ _ _ h hw'
      refine ⟨h1, ?_, ?_, ?_⟩
      · intro k x
        rw [h2, matchInfl_eq, inInfl_merge hi.nodup]
        simp only [List.mem_cons, exists_eq_or_imp, hc, Option.some.injEq, Prod.mk.injEq]
        constructor
        · rintro ((h | h) | h)
          · exact .inr (.inl ⟨o, i, ⟨rfl, rfl⟩, h⟩)
          · exact .inl h
          · exact .inr (.inr h)
        · rintro (h | ⟨o', i', ⟨rfl, rfl⟩, h⟩ | h)
          · exact .inl (.inr h)
          · exact .inl (.inl h)
          · exact .inr h
      · intro hh
        exact h3 ((matchInfl_hit _ _ _).1 hh)
      · intro k x c' o' i' hx hm hl hi'
        have hkey : k ∈ i'.map Prod.fst := by
          unfold InInfl at hi'
          cases hd : dlookup k i' with
          | none => rw [hd] at hi'; simp at hi'
          | some s => exact List.mem_map.2 ⟨_, dlookup_mem hd, rfl⟩
        rcases List.mem_cons.1 hm with rfl | hm
        · rw [hc] at hl
          injection hl with hl
          injection hl with hl1 hl2
          subst hl2
          exact h3 ((matchInfl_hit _ _ _).2 k x hkey hx)
        · refine h4 k x c' o' i' ?_ hm hl hi'
          rw [matchInfl_eq, inInfl_merge hi.nodup]
          exact .inr hx

/-- Two different requested conditions with a common expression are related. -/
theorem matchLoop_shared {H : Val → String} {t : CondTable}
    (ht : ∀ c r, dlookup c t.conds = some r → InflWF H r.2) :
    ∀ (req : List Key) (m : Infl) (hit : Bool) (m' : Infl) (hit' : Bool),
    matchLoop t req m hit = some (m', hit') → InflWF H m →
    ∀ c c' o i o' i' h x x', c ∈ req → c' ∈ req → c ≠ c' → dlookup c t.conds = some (o, i) →
      dlookup c' t.conds = some (o', i') → InInfl i h x → InInfl i' h x' → hit' = true := by
  intro req
  induction req with
  | nil => intro m hit m' hit' _ _ c c' o i o' i' h x x' hc; cases hc
  | cons d rest ih =>
    intro m hit m' hit' hm hw c c' o i o' i' h x x' hc hc' hne hl hl' hi hi'
    rw [matchLoop] at hm
    cases hd : dlookup d t.conds with
    | none => rw [hd] at hm; simp at hm
    | some oi =>
      obtain ⟨od, id⟩ := oi
      rw [hd] at hm
      simp only at hm
      have hid : InflWF H id := ht d _ hd
      have hw' : InflWF H (matchInfl id m hit).1 := by rw [matchInfl_eq]; exact inflWF_merge hid hw
      have hkeyof : ∀ {i' : Infl} {x : String}, InInfl i' h x → h ∈ i'.map Prod.fst := by
        intro i' x hi'
        unfold InInfl at hi'
        cases hd : dlookup h i' with
        | none => rw [hd] at hi'; simp at hi'
        | some s => exact List.mem_map.2 ⟨_, dlookup_mem hd, rfl⟩
      -- once `h` is in the collected influences, a later condition with it is a hit
      have later : ∀ (req : List Key) (m : Infl) (hit : Bool), matchLoop t req m hit = some (m', hit') →
          InflWF H m → (∃ y, InInfl m h y) → ∀ c o i x, c ∈ req → dlookup c t.conds = some (o, i) →
          InInfl i h x → hit' = true := by
        intro req
        induction req with
        | nil => intro m hit _ _ _ c o i x hc; cases hc
        | cons d rest ih =>
          intro m hit hm hw hy c o i x hc hl hi
          rw [matchLoop] at hm
          cases hd : dlookup d t.conds with
          | none => rw [hd] at hm; simp at hm
          | some oi =>
            obtain ⟨od, id⟩ := oi
            rw [hd] at hm
            simp only at hm
            have hid : InflWF H id := ht d _ hd
            have hw' : InflWF H (matchInfl id m hit).1 := by
              rw [matchInfl_eq]; exact inflWF_merge hid hw
            obtain ⟨y, hy⟩ := hy
            rcases List.mem_cons.1 hc with rfl | hc
            · rw [hd] at hl
              injection hl with hl
              injection hl with hl1 hl2
              subst hl2
              exact (matchLoop_some ht rest _ _ _ _ hm hw').2.2.1 ((matchInfl_hit _ _ _).2 h y (hkeyof hi) hy)
            · exact ih _ _ hm hw' ⟨y, by rw [matchInfl_eq, inInfl_merge hid.nodup]; exact .inr hy⟩ c o i x hc hl hi
      rcases List.mem_cons.1 hc with rfl | hcr
      · rcases List.mem_cons.1 hc' with rfl | hcr'
        · exact absurd rfl hne
        · rw [hd] at hl
          injection hl with hl
          injection hl with hl1 hl2
          subst hl2
          exact later rest _ _ hm hw' ⟨x, by rw [matchInfl_eq, inInfl_merge hid.nodup]; exact .inl hi⟩
            c' o' i' x' hcr' hl' hi'
      · rcases List.mem_cons.1 hc' with rfl | hcr'
        · rw [hd] at hl'
          injection hl' with hl'
          injection hl' with hl1 hl2
          subst hl2
          exact later rest _ _ hm hw' ⟨x', by rw [matchInfl_eq, inInfl_merge hid.nodup]; exact .inl hi'⟩
            c o i x hcr hl hi
        · exact ih _ _ _ _ hm hw' c c' o i o' i' h x x' hcr hcr' hne hl hl' hi hi'

/-! ### Building the scenarios -/

def curs (acc : List EqScenario) : List EqScenario := if acc = [] then [[]] else acc

theorem multiplyEquals_eq (acc : List EqScenario) (h : String) (sets : List String)
    (params : Option (List Val)) :
    multiplyEquals acc h sets params = multiplyLoop h sets params (curs acc) "" := by
  cases acc with
  | nil => simp [multiplyEquals, curs, multiplyLoop, dset]
  | cons c cs => simp [multiplyEquals, curs]

theorem mem_multiplyLoop {h : String} {sets : List String} {params : Option (List Val)} {sc : EqScenario} :
    ∀ (cs : List EqScenario) (fc : String), sc ∈ multiplyLoop h sets params cs fc →
    ∃ cur ∈ cs, ∃ fc', ∃ v ∈ (tryValues sets params fc').1, sc = dset h v cur := by
  intro cs
  induction cs with
  | nil => intro fc h; simp [multiplyLoop] at h
  | cons c cs ih =>
    intro fc hm
    rw [multiplyLoop, List.mem_append] at hm
    rcases hm with hm | hm
    · obtain ⟨v, hv, rfl⟩ := List.mem_map.1 hm
      exact ⟨c, List.mem_cons_self, fc, v, hv, rfl⟩
    · obtain ⟨cur, hc, h⟩ := ih _ hm
      exact ⟨cur, List.mem_cons_of_mem _ hc, h⟩

theorem multiplyLoop_mem {h : String} {sets : List String} {params : Option (List Val)}
    {cur : EqScenario} : ∀ (cs : List EqScenario) (fc : String), cur ∈ cs →
    ∃ fc', ∀ v ∈ (tryValues sets params fc').1, dset h v cur ∈ multiplyLoop h sets params cs fc := by
  intro cs
  induction cs with
  | nil => intro fc h; cases h
  | cons c cs ih =>
    intro fc hm
    rcases List.mem_cons.1 hm with rfl | hm
    · refine ⟨fc, fun v hv => ?_⟩
      rw [multiplyLoop, List.mem_append]
      exact .inl (List.mem_map.2 ⟨v, hv, rfl⟩)
    · obtain ⟨fc', h'⟩ := ih (tryValues sets params fc).2 hm
      refine ⟨fc', fun v hv => ?_⟩
      rw [multiplyLoop, List.mem_append]
      exact .inr (h' v hv)

theorem foldl_append_length : ∀ (sets : List String) (fc : String),
    fc.length ≤ (sets.foldl (· ++ ·) fc).length ∧
    ∀ s ∈ sets, s.length ≤ (sets.foldl (· ++ ·) fc).length := by
  intro sets
  induction sets with
  | nil => intro fc; simp
  | cons a as ih =>
    intro fc
    obtain ⟨h1, h2⟩ := ih (fc ++ a)
    rw [String.length_append] at h1
    rw [List.foldl_cons]
    refine ⟨by omega, ?_⟩
    intro s hs
    rcases List.mem_cons.1 hs with rfl | hs
    · omega
    · exact h2 s hs

/-- the value meant to differ from all others does -/
theorem bad_ne {sets : List String} {fc s : String} (h : s ∈ sets) :
    sets.foldl (· ++ ·) fc ++ ".bad" ≠ s := by
  intro he
  have h1 := (foldl_append_length sets fc).2 s h
  have h2 : (sets.foldl (· ++ ·) fc ++ ".bad").length = s.length := by rw [he]
  rw [String.length_append] at h2
  have : (".bad" : String).length = 4 := by decide
  omega

/-- Values that no member of the set distinguishes. -/
def SameOn (sets : List String) (v v' : String) : Prop := ∀ s ∈ sets, (v = s ↔ v' = s)

/-- Whatever value is wanted, one that is indistinguishable from it is tried. -/
theorem tryValues_complete {sets sets' : List String} {params : Option (List Val)} {fc w : String}
    (hs : ∀ x, x ∈ sets' ↔ x ∈ sets)
    (hp : ∀ vals, params = some vals → vals ≠ [] → w ∈ allowedTexts vals) :
    ∃ v ∈ (tryValues sets' params fc).1, SameOn sets v w := by
  unfold tryValues
  split
  · next p ps => exact ⟨w, hp (p :: ps) rfl (by simp), fun s _ => Iff.rfl⟩
  · by_cases hw : w ∈ sets
    · exact ⟨w, List.mem_append_left _ ((hs w).2 hw), fun s _ => Iff.rfl⟩
    · refine ⟨_, List.mem_append_right _ (List.mem_singleton.2 rfl), ?_⟩
      intro s hm
      constructor
      · intro h; exact absurd h (bad_ne ((hs s).2 hm))
      · rintro rfl; exact absurd hm hw

/-- The values tried under two orders of enumeration are indistinguishable. -/
theorem tryValues_order {sets s1 s2 : List String} {params : Option (List Val)} {fc1 fc2 v : String}
    (h2 : ∀ x, x ∈ s2 ↔ x ∈ sets)
    (hv : v ∈ (tryValues s1 params fc1).1) : ∃ v' ∈ (tryValues s2 params fc2).1, SameOn sets v' v := by
  refine tryValues_complete h2 ?_
  intro vals hp hne
  obtain ⟨p, ps, rfl⟩ := List.exists_cons_of_ne_nil hne
  subst hp
  simpa [tryValues] using hv

/-- Every wanted combination of permitted values is represented among the scenarios. -/
theorem build_complete {enum : String → List String → List String} (he : Enumerates enum)
    {params : List (String × List Val)} {τ : String → String} : ∀ (infl : Infl) (acc : List EqScenario)
    (cur : EqScenario), (infl.map Prod.fst).Nodup → infl ≠ [] ∨ acc ≠ [] → cur ∈ curs acc →
    (∀ h vals, dlookup h params = some vals → vals ≠ [] → h ∈ infl.map Prod.fst → τ h ∈ allowedTexts vals) →
    (∀ h ∈ infl.map Prod.fst, h ∉ cur.map Prod.fst) →
    ∃ sc ∈ buildScenarios enum params infl acc,
      (∀ h, h ∈ sc.map Prod.fst ↔ h ∈ cur.map Prod.fst ∨ h ∈ infl.map Prod.fst) ∧
      (∀ h, h ∉ infl.map Prod.fst → dlookup h sc = dlookup h cur) ∧
      ∀ h sets, (h, sets) ∈ infl → ∃ v, dlookup h sc = some v ∧ SameOn sets v (τ h) := by
  intro infl
  induction infl with
  | nil =>
    intro acc cur _ hne hc _ _
    have hacc : acc ≠ [] := by simpa using hne
    rw [curs, if_neg hacc] at hc
    exact ⟨cur, hc, by simp, by simp, by simp⟩
  | cons kv rest ih =>
    intro acc cur hn hne hc hp hd
    obtain ⟨h, sets⟩ := kv
    simp only [List.map_cons, List.nodup_cons] at hn
    rw [buildScenarios, multiplyEquals_eq]
    obtain ⟨fc, hfc⟩ := multiplyLoop_mem (h := h) (sets := enum h sets) (params := dlookup h params) _ "" hc
    obtain ⟨v, hv, hsame⟩ := tryValues_complete (sets := sets) (sets' := enum h sets)
      (params := dlookup h params) (fc := fc) (w := τ h) (he h sets)
      (fun vals hv hne => hp h vals hv hne (by simp))
    have hmem := hfc v hv
    have hkeys : ∀ k, k ∈ (dset h v cur).map Prod.fst ↔ k ∈ cur.map Prod.fst ∨ k = h := by
      intro k
      rw [dset_keys]
      split
      · next hh =>
        constructor
        · exact .inl
        · rintro (h | rfl) <;> assumption
      · simp
    obtain ⟨sc, hsc, k1, k2, k3⟩ := ih _ (dset h v cur) hn.2 (.inr (List.ne_nil_of_mem hmem))
      (by rw [curs, if_neg (List.ne_nil_of_mem hmem)]; exact hmem)
      (fun k vals hk hne hm => hp k vals hk hne (by simp only [List.map_cons, List.mem_cons]; exact .inr hm))
      (by
        intro k hk
        rw [hkeys]
        rintro (h' | rfl)
        · exact hd k (by simp only [List.map_cons, List.mem_cons]; exact .inr hk) h'
        · exact hn.1 hk)
    refine ⟨sc, hsc, ?_, ?_, ?_⟩
    · intro k
      rw [k1, hkeys]
      simp only [List.map_cons, List.mem_cons]
      exact or_assoc
    · intro k hk
      simp only [List.map_cons, List.mem_cons, not_or] at hk
      rw [k2 k hk.2, dlookup_dset, if_neg (fun e => hk.1 e.symm)]
    · intro k s hk
      rcases List.mem_cons.1 hk with hk | hk
      · injection hk with hk1 hk2
        subst hk1 hk2
        refine ⟨v, ?_, hsame⟩
        rw [k2 k hn.1, dlookup_dset, if_pos rfl]
      · exact k3 k s hk

/-- Every scenario gives each expression a permitted value. -/
theorem build_sound {enum : String → List String → List String}
    {params : List (String × List Val)} : ∀ (infl : Infl) (acc : List EqScenario) (K : List String),
    (acc = [] → K = []) →
    (∀ cur ∈ acc, (∀ h, h ∈ cur.map Prod.fst ↔ h ∈ K) ∧
      ∀ h v vals, dlookup h cur = some v → dlookup h params = some vals → vals ≠ [] →
        v ∈ allowedTexts vals) →
    (∀ h vals, dlookup h params = some vals → vals ≠ [] → allowedTexts vals ≠ []) →
    ∀ sc ∈ buildScenarios enum params infl acc,
      (∀ h, h ∈ sc.map Prod.fst ↔ h ∈ K ∨ h ∈ infl.map Prod.fst) ∧
      ∀ h v vals, dlookup h sc = some v → dlookup h params = some vals → vals ≠ [] →
        v ∈ allowedTexts vals := by
  intro infl
  induction infl with
  | nil =>
    intro acc K _ hacc _ sc hsc
    obtain ⟨h1, h2⟩ := hacc sc hsc
    exact ⟨by simpa using h1, h2⟩
  | cons kv rest ih =>
    intro acc K hK hacc hne sc hsc
    obtain ⟨h, sets⟩ := kv
    rw [buildScenarios, multiplyEquals_eq] at hsc
    have hcurs : ∀ cur ∈ curs acc, (∀ h, h ∈ cur.map Prod.fst ↔ h ∈ K) ∧
      ∀ h v vals, dlookup h cur = some v → dlookup h params = some vals → vals ≠ [] →
        v ∈ allowedTexts vals := by
      intro cur hc
      unfold curs at hc
      split at hc
      · next ha =>
        rw [List.mem_singleton] at hc
        subst hc
        rw [hK ha]
        exact ⟨by simp, by simp [dlookup]⟩
      · exact hacc cur hc
    have hex : ∃ c, c ∈ curs acc := by
      unfold curs
      split
      · exact ⟨[], by simp⟩
      · next ha => obtain ⟨c, cs, rfl⟩ := List.exists_cons_of_ne_nil ha; exact ⟨c, by simp⟩
    have := ih _ (K ++ [h]) ?_ ?_ hne sc hsc
    · refine ⟨?_, this.2⟩
      intro k
      rw [this.1]
      simp only [List.mem_append, List.map_cons, List.mem_cons, List.not_mem_nil, or_false]
      exact or_assoc
    · intro hempty
      exfalso
      obtain ⟨c, hc⟩ := hex
      obtain ⟨fc, hfc⟩ := multiplyLoop_mem (h := h) (sets := enum h sets) (params := dlookup h params) _ "" hc
      rw [hempty] at hfc
      have hnil : (tryValues (enum h sets) (dlookup h params) fc).1 = [] :=
        List.eq_nil_iff_forall_not_mem.2 (fun v hv => by cases hfc v hv)
      unfold tryValues at hnil
      split at hnil
      · next p ps hpp => exact hne h _ hpp (by simp) hnil
      · simp at hnil
    · intro cur hcur
      obtain ⟨c, hc, fc, v, hv, rfl⟩ := mem_multiplyLoop _ _ hcur
      obtain ⟨h1, h2⟩ := hcurs c hc
      constructor
      · intro k
        rw [dset_keys]
        simp only [List.mem_append, List.mem_singleton]
        split
        · next hh =>
          rw [h1]
          constructor
          · exact .inl
          · rintro (h | rfl)
            · exact h
            · exact (h1 _).1 hh
        · rw [List.mem_append, h1, List.mem_singleton]
      · intro k w vals hk hv' hvals
        rw [dlookup_dset] at hk
        split at hk
        · next he =>
          subst he
          simp only [Option.some.injEq] at hk
          subst hk
          rw [hv'] at hv
          obtain ⟨p, ps, rfl⟩ := List.exists_cons_of_ne_nil hvals
          simpa [tryValues] using hv
        · exact h2 k w vals hk hv' hvals

/-- Two partial scenarios that the comparisons cannot distinguish. -/
def SimSc (infl : Infl) (sc sc' : EqScenario) : Prop :=
  sc.map Prod.fst = sc'.map Prod.fst ∧ ∀ h v v', dlookup h sc = some v → dlookup h sc' = some v' →
    ∀ x, InInfl infl h x → (v = x ↔ v' = x)

/-- The scenarios built under two orders of enumeration are pairwise indistinguishable. -/
theorem build_order {e1 e2 : String → List String → List String} (h1 : Enumerates e1) (h2 : Enumerates e2)
    {params : List (String × List Val)} {full : Infl} : ∀ (infl : Infl) (acc1 acc2 : List EqScenario),
    (∀ h sets, (h, sets) ∈ infl → ∀ x, InInfl full h x → x ∈ sets) → (acc1 = [] ↔ acc2 = []) →
    (∀ a ∈ acc1, ∃ b ∈ acc2, SimSc full a b) →
    ∀ a ∈ buildScenarios e1 params infl acc1, ∃ b ∈ buildScenarios e2 params infl acc2, SimSc full a b := by
  intro infl
  induction infl with
  | nil => intro acc1 acc2 _ _ h; exact h
  | cons kv rest ih =>
    intro acc1 acc2 hs hemp hacc
    obtain ⟨h, sets⟩ := kv
    rw [buildScenarios, buildScenarios, multiplyEquals_eq, multiplyEquals_eq]
    have hcurs : ∀ a ∈ curs acc1, ∃ b ∈ curs acc2, SimSc full a b := by
      intro a ha
      unfold curs at ha ⊢
      by_cases h0 : acc1 = []
      · rw [if_pos h0, List.mem_singleton] at ha
        rw [if_pos (hemp.1 h0)]
        subst ha
        exact ⟨[], by simp, rfl, by simp [dlookup]⟩
      · rw [if_neg h0] at ha
        rw [if_neg (fun e => h0 (hemp.2 e))]
        exact hacc a ha
    have hempty : ∀ (e e' : String → List String → List String), Enumerates e → Enumerates e' →
        ∀ a a', (a = [] ↔ a' = []) →
        multiplyLoop h (e h sets) (dlookup h params) (curs a) "" = [] →
        multiplyLoop h (e' h sets) (dlookup h params) (curs a') "" = [] := by
      intro e e' he he' a a' _ hm
      rw [List.eq_nil_iff_forall_not_mem]
      intro sc hsc
      obtain ⟨c, hc, fc, v, hv, rfl⟩ := mem_multiplyLoop _ _ hsc
      have hex : ∃ c, c ∈ curs a := by
        unfold curs
        split
        · exact ⟨[], by simp⟩
        · next ha => obtain ⟨c, cs, rfl⟩ := List.exists_cons_of_ne_nil ha; exact ⟨c, by simp⟩
      obtain ⟨c', hc'⟩ := hex
      obtain ⟨fc', hfc'⟩ := multiplyLoop_mem (h := h) (sets := e h sets) (params := dlookup h params) _ "" hc'
      obtain ⟨v', hv', _⟩ := tryValues_order (sets := sets) (s1 := e' h sets) (s2 := e h sets) (fc2 := fc')
        (he h sets) hv
      have := hfc' v' hv'
      rw [hm] at this
      cases this
    refine ih _ _ (fun k s hk => hs k s (List.mem_cons_of_mem _ hk)) ?_ ?_
    · exact ⟨hempty e1 e2 h1 h2 acc1 acc2 hemp, hempty e2 e1 h2 h1 acc2 acc1 hemp.symm⟩
    · intro a ha
      obtain ⟨c, hc, fc, v, hv, rfl⟩ := mem_multiplyLoop _ _ ha
      obtain ⟨c', hc', hsim⟩ := hcurs c hc
      obtain ⟨fc', hfc'⟩ := multiplyLoop_mem (h := h) (sets := e2 h sets) (params := dlookup h params) _ "" hc'
      obtain ⟨v', hv', hsame⟩ := tryValues_order (sets := sets) (s1 := e1 h sets) (s2 := e2 h sets)
        (fc2 := fc') (h2 h sets) hv
      refine ⟨_, hfc' v' hv', ?_, ?_⟩
      · rw [dset_keys, dset_keys, hsim.1]
      · intro k w w' hw hw' x hx
        rw [dlookup_dset] at hw hw'
        by_cases hk : h = k
        · subst hk
          simp only [if_true, Option.some.injEq] at hw hw'
          subst hw hw'
          exact (hsame x (hs h sets List.mem_cons_self x hx)).symm
        · rw [if_neg hk] at hw hw'
          exact hsim.2 k w w' hw hw' x hx

end CfnLint
