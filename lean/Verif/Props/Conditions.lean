import Verif.Lemmas.CondMain
/-
C21–C26: condition scenarios.
-/
namespace CfnLint
open Spec

/-! ### C21 Scenario shape -/

/-- **C21** Every scenario assigns a value to exactly the requested conditions. -/
theorem C21_exactly_requested (enum : String → List String → List String) (tb : CondTable)
    (req : List Key) (scs : List Scenario) (h : getScenarios enum tb req = .ok scs) :
    ∀ sc ∈ scs, ∀ c, (∃ b, dlookup c sc = some b) ↔ c ∈ req := by
  have key : ∀ sc : Scenario, ∀ c, (∃ b, dlookup c sc = some b) ↔ c ∈ sc.map Prod.fst := by
    intro sc c
    rw [← dhas_iff, dhas, Option.isSome_iff_exists]
  intro sc hsc c
  rw [key]
  unfold getScenarios at h
  split at h
  · injection h with h; subst h; cases hsc
  · cases hm : matchLoop tb req [] false with
    | none => rw [hm] at h; injection h with h; subst h; cases hsc
    | some mh =>
      obtain ⟨m, hit⟩ := mh
      rw [hm] at h
      simp only at h
      split at h
      · split at h
        · injection h with h
          subst h
          rw [List.mem_append] at hsc
          rcases hsc with hsc | hsc
          · simpa using multi_keys (by simp) req [] [] (fun _ => rfl) (by simp) sc hsc c
          · simpa using multi_keys (by simp) req [] [] (fun _ => rfl) (by simp) sc hsc c
        · injection h with h
          subst h
          simpa using multi_keys (by simp) req [] [] (fun _ => rfl) (by simp) sc hsc c
      · obtain ⟨h1, _⟩ := collect_ok _ _ _ h
        rcases (h1 sc).1 hsc with h | ⟨s, _, ht⟩
        · cases h
        · obtain ⟨f, _, rfl⟩ := testAll_inv _ _ _ ht
          rw [← key]
          simp only [dlookup_foldl_dset, dlookup]
          by_cases hc : c ∈ req <;> simp [hc]

/-- **C21** A request that names an unknown condition yields no scenario. -/
theorem C21_unknown (enum : String → List String → List String) (tb : CondTable) (req : List Key)
    (c : Key) (hc : c ∈ req) (hu : ∀ r, (c, r) ∉ tb.conds) : getScenarios enum tb req = .ok [] := by
  unfold getScenarios
  split
  · rfl
  · have : matchLoop tb req [] false = none := by
      rw [matchLoop_none]
      refine ⟨c, hc, ?_⟩
      cases hd : dlookup c tb.conds with
      | none => rfl
      | some r => exact absurd (dlookup_mem hd) (hu r)
    rw [this]

/-- **C21** No scenario is returned twice, when each condition is requested once. -/
theorem C21_distinct (enum : String → List String → List String) (tb : CondTable) (req : List Key)
    (hreq : req.Nodup) (scs : List Scenario) (h : getScenarios enum tb req = .ok scs) : scs.Nodup := by
  unfold getScenarios at h
  split at h
  · injection h with h; subst h; simp
  · cases hm : matchLoop tb req [] false with
    | none => rw [hm] at h; injection h with h; subst h; simp
    | some mh =>
      obtain ⟨m, hit⟩ := mh
      rw [hm] at h
      simp only at h
      split at h
      · split at h
        · next hlen =>
          injection h with h
          subst h
          rw [List.nodup_append]
          refine ⟨multi_nodup (by simp) req [] hreq (by simp [curS]) (by simp) (by simp),
            multi_nodup (by simp) req [] hreq (by simp [curS]) (by simp) (by simp), ?_⟩
          -- a scenario of the first half makes the first condition true, one of the second half false
          obtain ⟨d, ds, rfl⟩ : ∃ d ds, req = d :: ds := by
            cases req with
            | nil => simp at hlen
            | cons d ds => exact ⟨d, ds, rfl⟩
          have val : ∀ (b : Bool) (l : List Key) (rs : List Scenario), (∀ sc ∈ rs, dlookup d sc = some (some b)) →
              rs ≠ [] → ∀ sc ∈ l.foldl (fun rs c => multiplyConditions rs c [b]) rs,
              dlookup d sc = some (some b) := by
            intro b l
            induction l with
            | nil => intro rs h _; exact h
            | cons c cs ih =>
              intro rs h hne
              rw [List.foldl_cons]
              have hne' : multiplyConditions rs c [b] ≠ [] := by
                obtain ⟨a, as, rfl⟩ := List.exists_cons_of_ne_nil hne
                simp [multiplyConditions]
              refine ih _ ?_ hne'
              intro sc hsc
              rw [multiplyConditions_eq, curS, if_neg hne, List.mem_flatMap] at hsc
              obtain ⟨cur, hcur, hsc⟩ := hsc
              simp only [List.map_cons, List.map_nil, List.mem_singleton] at hsc
              subst hsc
              rw [dlookup_dset]
              split
              · rfl
              · exact h cur hcur
          intro a ha b hb hab
          subst hab
          rw [List.foldl_cons] at ha hb
          have h1 := val true ds _ (by simp [multiplyConditions, dlookup]) (by simp [multiplyConditions]) a ha
          have h2 := val false ds _ (by simp [multiplyConditions, dlookup]) (by simp [multiplyConditions]) a hb
          rw [h1] at h2
          simp at h2
        · injection h with h
          subst h
          exact multi_nodup (by simp) req [] hreq (by simp [curS]) (by simp) (by simp)
      · exact (collect_ok _ _ _ h).2 (by simp)

/-! ### C22 Scenario completeness -/

/-- **C22**, the full statement: the truth values of the requested conditions under any permitted
assignment form a returned scenario. -/
def C22_statement : Prop :=
  ∀ (H : Val → String) (fuel : Nat) (enum : String → List String → List String) (t : List (Key × Val))
    (tb : CondTable) (σ : Val → String) (req : List Key) (b : Key → Bool),
    Enumerates enum → (Val.dict t).WF → NoHashLiterals H (conditionsOf t) →
    Conditions.init H fuel (.dict t) = (tb, none) → Respects H σ → Permitted t σ → req ≠ [] →
    (∀ c ∈ req, ∃ v, dlookup c (conditionsOf t) = some v ∧ Evals AnyEquals (conditionsOf t) σ v (b c)) →
    ∃ scs, getScenarios enum tb req = .ok scs ∧
      ∃ sc ∈ scs, ∀ c ∈ req, dlookup c sc = some (some (b c))

/-- **C22**, what holds: the conditions compare expressions with text or integer literals, allowed values
are texts or integers, and not more than four unrelated conditions are requested.
Missing for the full statement: comparisons of two expressions, of two literals or with Boolean literals,
Boolean or other allowed values, five or more unrelated conditions. -/
theorem C22_complete_partial (H : Val → String) (fuel : Nat) (enum : String → List String → List String)
    (t : List (Key × Val)) (tb : CondTable) (σ : Val → String) (req : List Key) (b : Key → Bool)
    (henum : Enumerates enum) (hwf : (Val.dict t).WF) (hno : NoHashLiterals H (conditionsOf t))
    (hinit : Conditions.init H fuel (.dict t) = (tb, none)) (hσ : Respects H σ) (hp : Permitted t σ)
    (hpl : PlainAllowed t) (hne : req ≠ [])
    (hreq : ∀ c ∈ req, ∃ v, dlookup c (conditionsOf t) = some v ∧
      Evals OneSided (conditionsOf t) σ v (b c))
    (hsmall : req.length ≤ 4 ∨ Related (conditionsOf t) req) :
    ∃ scs, getScenarios enum tb req = .ok scs ∧
      ∃ sc ∈ scs, ∀ c ∈ req, dlookup c sc = some (some (b c)) := by
  obtain ⟨c0, hc0⟩ := List.exists_mem_of_ne_nil req hne
  obtain ⟨v0, hv0, _⟩ := hreq c0 hc0
  have ht := conditionsOf_some hv0
  have hgood : ∀ c ∈ req, ∃ v o i, dlookup c (conditionsOf t) = some v ∧ dlookup c tb.conds = some (o, i) ∧
      GoodObj H (conditionsOf t) (hashVal H σ) v (b c) o := by
    intro c hc
    obtain ⟨v, hv, he⟩ := hreq c hc
    obtain ⟨o, i, hl, g⟩ := table_good (τ := hashVal H σ) ht hinit hv he (fun x _ => hashVal_eq hσ x)
    exact ⟨v, o, i, hv, hl, g⟩
  have hok := table_ok hno hinit
  have hinfl : ∀ c r, dlookup c tb.conds = some r → InflWF H r.2 := fun c r h => (hok c r h).1
  obtain ⟨_, o0, i0, _, hl0, _⟩ := hgood c0 hc0
  unfold getScenarios
  rw [if_neg (by rw [conds_ne_nil hl0]; simp)]
  cases hm : matchLoop tb req [] false with
  | none =>
    rw [matchLoop_none] at hm
    obtain ⟨c, hc, hn⟩ := hm
    obtain ⟨_, o, i, _, hl, _⟩ := hgood c hc
    rw [hl] at hn
    cases hn
  | some mh =>
    obtain ⟨m, hit⟩ := mh
    simp only
    obtain ⟨hmw, hmi, _, _⟩ := matchLoop_some hinfl req [] false m hit hm inflWF_nil
    cases hhit : hit with
    | false =>
      simp only [Bool.not_false, if_true]
      have hlen : ¬ req.length > 4 := by
        rcases hsmall with h | ⟨c, hc, c', hc', hcc, v, v', e, hv, hv', hu, hu'⟩
        · omega
        · exfalso
          obtain ⟨w, o, i, hw, hl, g⟩ := hgood c hc
          obtain ⟨w', o', i', hw', hl', g'⟩ := hgood c' hc'
          rw [hv] at hw; injection hw with hw; subst hw
          rw [hv'] at hw'; injection hw' with hw'; subst hw'
          obtain ⟨q, hq, s, his⟩ := g.used e hu
          obtain ⟨q', hq', s', his'⟩ := g'.used e hu'
          have := matchLoop_shared hinfl req [] false m hit hm inflWF_nil c c' o i o' i' (H e) s s' hc hc' hcc
            hl hl' (is_infl his ((hok c _ hl).2 q hq).1) (is_infl his' ((hok c' _ hl').2 q' hq').1)
          rw [this] at hhit
          cases hhit
      rw [if_neg hlen]
      obtain ⟨sc, hsc, hl⟩ := multi_complete (vals := [true, false]) (b := b) (by intro c; cases b c <;> simp)
        req [] [] (.inl hne) (by simp [curS])
      exact ⟨_, rfl, sc, hsc, fun c hc => by rw [hl, if_pos hc]⟩
    | true =>
      subst hhit
      simp only [Bool.not_true]
      have hmne : m ≠ [] := by
        rintro rfl
        -- nothing was recorded, so nothing could be hit
        have : ∀ c ∈ req, ∀ o i, dlookup c tb.conds = some (o, i) → i = [] := by
          intro c hc o i hl
          cases i with
          | nil => rfl
          | cons kv rest =>
            exfalso
            have hwf' := hinfl c _ hl
            obtain ⟨y, ys, hys⟩ := List.exists_cons_of_ne_nil (hwf'.nonempty kv List.mem_cons_self)
            have hin : InInfl (kv :: rest) kv.1 y := by
              unfold InInfl
              rw [dlookup, if_pos rfl]
              simp [hys]
            have := (hmi kv.1 y).2 (.inr ⟨c, hc, o, _, hl, hin⟩)
            simp [InInfl, dlookup] at this
        have nohit : ∀ (l : List Key), (∀ c ∈ l, c ∈ req) → ∀ r, matchLoop tb l [] false = some r → r.2 = false := by
          intro l
          induction l with
          | nil => intro _ r h; simp only [matchLoop, Option.some.injEq] at h; rw [← h]
          | cons c cs ih =>
            intro hl r h
            rw [matchLoop] at h
            cases hd : dlookup c tb.conds with
            | none => rw [hd] at h; cases h
            | some oi =>
              obtain ⟨o, i⟩ := oi
              rw [hd, this c (hl c List.mem_cons_self) o i hd] at h
              exact ih (fun c hc => hl c (List.mem_cons_of_mem _ hc)) r h
        have := nohit req (fun _ h => h) _ hm
        cases this
      have hallow : ∀ h vals, dlookup h tb.params = some vals → vals ≠ [] → h ∈ m.map Prod.fst →
          hashVal H σ h ∈ allowedTexts vals := by
        intro h vals hl hvne _
        obtain ⟨p, rfl, ha⟩ := params_sound hwf ht hinit hl
        obtain ⟨w, hw, hlit⟩ := hp p vals ha hvne
        rw [hashVal_eq hσ]
        exact allowedTexts_lit hw (hpl p vals ha w hw) hlit
      obtain ⟨sc, hsc, hkeys, _, hvals⟩ := build_complete henum m [] [] hmw.nodup (.inl hmne)
        (by simp [curs]) hallow (by simp)
      have hk : HashKeys H sc := by
        intro k hk
        rw [hkeys] at hk
        rcases hk with hk | hk
        · cases hk
        · obtain ⟨kv, hkv, rfl⟩ := List.mem_map.1 hk
          exact hmw.hashes kv hkv
      have htest : ∀ c ∈ req, ∃ o i, dlookup c tb.conds = some (o, i) ∧ o.test sc = .ok (some (b c)) := by
        intro c hc
        obtain ⟨v, o, i, hv, hl, g⟩ := hgood c hc
        refine ⟨o, i, hl, good_test g (hok c _ hl) ?_ hk hvals⟩
        intro h x hx
        exact (hmi h x).2 (.inr ⟨c, hc, o, i, hl, hx⟩)
      obtain ⟨out, hout⟩ := collect_total (t := tb) (req := req) (buildScenarios enum tb.params m []) [] (by
        intro s _
        have : ∀ l : List Key, (∀ c ∈ l, c ∈ req) → ∀ acc, ∃ r, testAll tb s l acc = .ok r := by
          intro l
          induction l with
          | nil => intro _ acc; exact ⟨acc, rfl⟩
          | cons c cs ih =>
            intro hl acc
            obtain ⟨v, o, i, _, hlk, g⟩ := hgood c (hl c List.mem_cons_self)
            obtain ⟨r, hr⟩ := test_complete s o g.complete
            rw [testAll, hlk]
            simp only [hr]
            exact ih (fun c hc => hl c (List.mem_cons_of_mem _ hc)) _
        exact this req (fun _ h => h) [])
      refine ⟨out, by simpa using hout, _, ((collect_ok _ _ _ hout).1 _).2 (.inr ⟨sc, hsc, testAll_ok req [] htest⟩), ?_⟩
      intro c hc
      rw [dlookup_foldl_dset, if_pos hc]

/-- a fingerprint for the witnesses: references to the parameters `P1` … `P5` -/
def exHash (v : Val) : String :=
  if v = refTo (.str "P1") then "#1" else if v = refTo (.str "P2") then "#2"
  else if v = refTo (.str "P3") then "#3" else if v = refTo (.str "P4") then "#4"
  else if v = refTo (.str "P5") then "#5" else "#"

theorem exHash_mem (v : Val) : exHash v ∈ ["#1", "#2", "#3", "#4", "#5", "#"] := by
  unfold exHash
  repeat' split
  all_goals simp

/-- `{"Fn::Equals": [a, b]}` -/
def exEquals (a b : Val) : Val := .dict [(.str "Fn::Equals", .list [a, b])]

/-- the scenarios of a result that is not an exception -/
def scenariosOf : PyM (List Scenario) → List Scenario
  | .ok l => l
  | .error _ => []

/-- five unrelated conditions -/
def exFive : List (Key × Val) :=
  [(.str "Conditions", .dict [
    (.str "C1", exEquals (refTo (.str "P1")) (.str "a")),
    (.str "C2", exEquals (refTo (.str "P2")) (.str "a")),
    (.str "C3", exEquals (refTo (.str "P3")) (.str "a")),
    (.str "C4", exEquals (refTo (.str "P4")) (.str "a")),
    (.str "C5", exEquals (refTo (.str "P5")) (.str "a"))])]

/-- one two-sided comparison and one of each of its sides -/
def exTwo : List (Key × Val) :=
  [(.str "Conditions", .dict [
    (.str "C1", exEquals (refTo (.str "P1")) (refTo (.str "P2"))),
    (.str "C2", exEquals (refTo (.str "P1")) (.str "a")),
    (.str "C3", exEquals (refTo (.str "P2")) (.str "a"))])]

/-- two comparisons with the same parameter -/
def exOne : List (Key × Val) :=
  [(.str "Conditions", .dict [
    (.str "C1", exEquals (refTo (.str "P1")) (.str "a")),
    (.str "C2", .dict [(.str "Fn::Not", .list [.dict [(.str "Condition", .str "C1")]])])]),
   (.str "Parameters", .dict [(.str "P1", .dict [(.str "AllowedValues", .list [.str "a", .str "b"])])])]

theorem exHash_text {s : String} (h : s ∉ ["#1", "#2", "#3", "#4", "#5", "#"]) (v : Val) : exHash v ≠ s :=
  fun e => h (e ▸ exHash_mem v)

/-- **C22** Five unrelated conditions: only "all true" and "all false" are returned. -/
theorem C22_five_violated : ¬ C22_statement := by
  intro h
  have := h exHash 5 (fun _ s => s) exFive (Conditions.init exHash 5 (.dict exFive)).1
    (fun v => if exHash v = "#1" then "a" else "b")
    [.str "C1", .str "C2", .str "C3", .str "C4", .str "C5"] (fun c => c == .str "C1")
    (fun _ _ _ => Iff.rfl) (by simp [exFive, exEquals, refTo, Val.WF, Val.WFDict, Val.WFList, Key.toVal])
    ?_ (Prod.ext rfl (by decide)) (fun a b h => by simp only [h])
    (by rintro p vals ⟨ps, body, h, _⟩; revert h; simp [exFive, dlookup]) (by simp) ?_
  · obtain ⟨scs, hs, sc, hm, hl⟩ := this
    have h0 : (scenariosOf (getScenarios (fun _ s => s) (Conditions.init exHash 5 (.dict exFive)).1
      [.str "C1", .str "C2", .str "C3", .str "C4", .str "C5"])).all
        (fun sc => dlookup (.str "C1") sc == dlookup (.str "C2") sc) = true := by decide
    rw [hs] at h0
    have h1 := List.all_eq_true.1 h0 sc hm
    rw [hl (.str "C1") (by simp), hl (.str "C2") (by simp)] at h1
    revert h1; decide
  · intro s hs
    refine exHash_text ?_
    simp [conditionsOf, exFive, dlookup, LitInDict, LitIn, LitInList, exEquals, refTo, Key.toVal] at hs
    rcases hs with (rfl | rfl) | (rfl | rfl) | (rfl | rfl) | (rfl | rfl) | rfl | rfl <;> decide
  · have key : ∀ p : String, ∀ b : Bool, ∀ conds, (if exHash (refTo (.str p)) = "#1" then "a" else "b") = (if b then "a" else "b") →
        Evals AnyEquals conds (fun v => if exHash v = "#1" then "a" else "b") (exEquals (refTo (.str p)) (.str "a")) b := by
      intro p b conds hb
      have := Evals.equals (P := AnyEquals) (conds := conds)
        (σ := fun v => if exHash v = "#1" then "a" else "b") (a := refTo (.str p)) (b := .str "a")
        trivial Operand.expr (Operand.lit rfl)
      have heq : ((if exHash (refTo (.str p)) = "#1" then "a" else "b") == "a") = b := by
        rw [hb]; cases b <;> decide
      rw [← heq]
      exact this
    intro c hc
    simp only [List.mem_cons, List.not_mem_nil, or_false] at hc
    rcases hc with rfl | rfl | rfl | rfl | rfl
    · exact ⟨_, rfl, key "P1" true _ (by decide)⟩
    · exact ⟨_, rfl, key "P2" false _ (by decide)⟩
    · exact ⟨_, rfl, key "P3" false _ (by decide)⟩
    · exact ⟨_, rfl, key "P4" false _ (by decide)⟩
    · exact ⟨_, rfl, key "P5" false _ (by decide)⟩

/-- The full statement also fails for fewer than five conditions: with a comparison of two expressions, "both
sides are `a`" makes all three conditions true, which is not among the scenarios. -/
theorem C22_two_expressions :
    (∀ c ∈ [Key.str "C1", .str "C2", .str "C3"], ∃ v, dlookup c (conditionsOf exTwo) = some v ∧
      Evals AnyEquals (conditionsOf exTwo) (fun _ => "a") v true) ∧
    (Conditions.init exHash 5 (.dict exTwo)).2 = none ∧
    ∀ sc ∈ scenariosOf (getScenarios (fun _ s => s) (Conditions.init exHash 5 (.dict exTwo)).1
        [.str "C1", .str "C2", .str "C3"]),
      ¬ ∀ c ∈ [Key.str "C1", .str "C2", .str "C3"], dlookup c sc = some (some true) := by
  refine ⟨?_, by decide, by decide⟩
  have key : ∀ p : String, Evals AnyEquals (conditionsOf exTwo) (fun _ => "a")
      (exEquals (refTo (.str p)) (.str "a")) true := fun p =>
    Evals.equals (P := AnyEquals) (σ := fun _ => "a") (a := refTo (.str p)) (b := .str "a")
        trivial Operand.expr (Operand.lit rfl)
  intro c hc
  simp only [List.mem_cons, List.not_mem_nil, or_false] at hc
  rcases hc with rfl | rfl | rfl
  · exact ⟨_, rfl, Evals.equals (P := AnyEquals) (σ := fun _ => "a") (a := refTo (.str "P1"))
      (b := refTo (.str "P2")) trivial Operand.expr Operand.expr⟩
  · exact ⟨_, rfl, key "P1"⟩
  · exact ⟨_, rfl, key "P2"⟩

theorem exHash_noLit {t : List (Key × Val)} (h : ∀ s, LitInDict s (conditionsOf t) →
    s ∉ ["#1", "#2", "#3", "#4", "#5", "#"]) : NoHashLiterals exHash (conditionsOf t) :=
  fun s hs v => exHash_text (h s hs) v

theorem exOne_noLit : NoHashLiterals exHash (conditionsOf exOne) := by
  refine exHash_noLit fun s hs => ?_
  simp [conditionsOf, exOne, dlookup, LitInDict, LitIn, LitInList, exEquals, refTo, Key.toVal] at hs
  rcases hs with (rfl | rfl) | rfl <;> decide

theorem exOne_wf : (Val.dict exOne).WF := by
  simp [exOne, exEquals, refTo, Val.WF, Val.WFDict, Val.WFList, Key.toVal]

theorem exOne_allows {p : Key} {vals : List Val} (h : Allows exOne p vals) :
    p = .str "P1" ∧ vals = [.str "a", .str "b"] := by
  obtain ⟨ps, body, h1, h2, h3⟩ := h
  simp [exOne, dlookup] at h1
  subst h1
  simp only [dlookup] at h2
  split at h2
  · next hp =>
    simp only [Option.some.injEq, Val.dict.injEq] at h2
    subst h2
    simp [dlookup] at h3
    exact ⟨hp.symm, h3.symm⟩
  · cases h2

theorem exOne_evals (s : String) : Evals OneSided (conditionsOf exOne) (fun _ => s)
    (exEquals (refTo (.str "P1")) (.str "a")) (s == "a") :=
  Evals.equals (P := OneSided) (σ := fun _ => s) (a := refTo (.str "P1")) (b := .str "a")
    (.inl ⟨⟨_, _, rfl⟩, trivial⟩) Operand.expr (Operand.lit rfl)

/-- the hypotheses of `C22_complete_partial` are met -/
example : ∃ scs, getScenarios (fun _ s => s) (Conditions.init exHash 5 (.dict exOne)).1
      [.str "C1", .str "C2"] = .ok scs ∧
    ∃ sc ∈ scs, ∀ c ∈ [Key.str "C1", .str "C2"], dlookup c sc = some (some (c == .str "C1")) := by
  refine C22_complete_partial exHash 5 (fun _ s => s) exOne _ (fun _ => "a") _ _ (fun _ _ _ => Iff.rfl)
    exOne_wf exOne_noLit (Prod.ext rfl (by decide)) (fun _ _ _ => rfl) ?_ ?_ (by simp) ?_ (.inl (by simp))
  · intro p vals ha _
    obtain ⟨_, rfl⟩ := exOne_allows ha
    exact ⟨.str "a", by simp, rfl⟩
  · intro p vals ha
    obtain ⟨_, rfl⟩ := exOne_allows ha
    simp [PlainLit]
  · intro c hc
    simp only [List.mem_cons, List.not_mem_nil, or_false] at hc
    rcases hc with rfl | rfl
    · exact ⟨_, rfl, exOne_evals "a"⟩
    · exact ⟨_, rfl, Evals.not (Evals.named (v := exEquals (refTo (.str "P1")) (.str "a")) rfl (exOne_evals "a"))⟩

/-! ### C23 Scenario soundness -/

/-- **C23**, the full statement: every scenario returned for related conditions is the vector of truth values
under some permitted assignment. -/
def C23_statement : Prop :=
  ∀ (H : Val → String) (fuel : Nat) (enum : String → List String → List String) (t : List (Key × Val))
    (tb : CondTable) (req : List Key) (scs : List Scenario),
    Enumerates enum → (Val.dict t).WF → NoHashLiterals H (conditionsOf t) → RefsDistinct H →
    Conditions.init H fuel (.dict t) = (tb, none) →
    (∀ c ∈ req, ∃ v, dlookup c (conditionsOf t) = some v ∧
      ∀ σ, ∃ b, Evals AnyEquals (conditionsOf t) σ v b) →
    Related (conditionsOf t) req → getScenarios enum tb req = .ok scs →
    ∀ sc ∈ scs, ∃ σ, Respects H σ ∧ Permitted t σ ∧
      ∀ c ∈ req, ∃ v b, dlookup c (conditionsOf t) = some v ∧ Evals AnyEquals (conditionsOf t) σ v b ∧
        dlookup c sc = some (some b)

/-- **C23**, what holds: the conditions compare expressions with text or integer literals, and allowed values
are texts or integers. Missing for the full statement: other comparisons and other allowed values. -/
theorem C23_sound_partial (H : Val → String) (fuel : Nat) (enum : String → List String → List String)
    (t : List (Key × Val)) (tb : CondTable) (req : List Key) (scs : List Scenario)
    (hwf : (Val.dict t).WF) (hno : NoHashLiterals H (conditionsOf t))
    (href : RefsDistinct H) (hinit : Conditions.init H fuel (.dict t) = (tb, none)) (hpl : PlainAllowed t)
    (hreq : ∀ c ∈ req, ∃ v, dlookup c (conditionsOf t) = some v ∧ WellFormed (conditionsOf t) v)
    (hrel : Related (conditionsOf t) req) (hscs : getScenarios enum tb req = .ok scs) :
    ∀ sc ∈ scs, ∃ σ, Respects H σ ∧ Permitted t σ ∧
      ∀ c ∈ req, ∃ v b, dlookup c (conditionsOf t) = some v ∧ Evals OneSided (conditionsOf t) σ v b ∧
        dlookup c sc = some (some b) := by
  intro r hr
  obtain ⟨c1, hc1, c2, hc2, hcc, v1, v2, e, hv1, hv2, hu1, hu2⟩ := hrel
  have ht := conditionsOf_some hv1
  have hok := table_ok hno hinit
  have hinfl : ∀ c r, dlookup c tb.conds = some r → InflWF H r.2 := fun c r h => (hok c r h).1
  -- any assignment that respects the fingerprints gives good objects
  have hgood : ∀ τ : String → String, ∀ c ∈ req, ∀ v, dlookup c (conditionsOf t) = some v →
      ∃ b o i, Evals OneSided (conditionsOf t) (fun x => τ (H x)) v b ∧
        dlookup c tb.conds = some (o, i) ∧ GoodObj H (conditionsOf t) τ v b o := by
    intro τ c hc v hv
    obtain ⟨v', hv', hw⟩ := hreq c hc
    rw [hv] at hv'; injection hv' with hv'; subst hv'
    obtain ⟨b, he⟩ := hw (fun x => τ (H x))
    obtain ⟨o, i, hl, g⟩ := table_good (τ := τ) ht hinit hv he (fun _ _ => rfl)
    exact ⟨b, o, i, he, hl, g⟩
  unfold getScenarios at hscs
  obtain ⟨_, o1, i1, _, hl1, g1⟩ := hgood id c1 hc1 v1 hv1
  obtain ⟨_, o2, i2, _, hl2, g2⟩ := hgood id c2 hc2 v2 hv2
  rw [if_neg (by rw [conds_ne_nil hl1]; simp)] at hscs
  cases hm : matchLoop tb req [] false with
  | none =>
    rw [matchLoop_none] at hm
    obtain ⟨c, hc, hn⟩ := hm
    obtain ⟨v, hv, _⟩ := hreq c hc
    obtain ⟨_, o, i, _, hl, _⟩ := hgood id c hc v hv
    rw [hl] at hn
    cases hn
  | some mh =>
    obtain ⟨m, hit⟩ := mh
    rw [hm] at hscs
    simp only at hscs
    obtain ⟨hmw, hmi, _, _⟩ := matchLoop_some hinfl req [] false m hit hm inflWF_nil
    obtain ⟨q, hq, s, his⟩ := g1.used e hu1
    obtain ⟨q', hq', s', his'⟩ := g2.used e hu2
    have hhit := matchLoop_shared hinfl req [] false m hit hm inflWF_nil c1 c2 o1 i1 o2 i2 (H e) s s' hc1 hc2 hcc
      hl1 hl2 (is_infl his ((hok c1 _ hl1).2 q hq).1) (is_infl his' ((hok c2 _ hl2).2 q' hq').1)
    subst hhit
    simp only [Bool.not_true, Bool.false_eq_true, if_false] at hscs
    obtain ⟨h1, _⟩ := collect_ok _ _ _ hscs
    rcases (h1 r).1 hr with h | ⟨sc, hsc, htest⟩
    · cases h
    · have hallne : ∀ h vals, dlookup h tb.params = some vals → vals ≠ [] → allowedTexts vals ≠ [] := by
        intro h vals hl hvne
        obtain ⟨p, rfl, ha⟩ := params_sound hwf ht hinit hl
        obtain ⟨w, ws, rfl⟩ := List.exists_cons_of_ne_nil hvne
        have hw := hpl p _ ha w List.mem_cons_self
        obtain ⟨s, hs, _⟩ := mkEqV_lit (H := H) hw
        exact List.ne_nil_of_mem (allowedTexts_lit List.mem_cons_self hw hs)
      obtain ⟨hkeys, hvals⟩ := build_sound (enum := enum) m [] [] (fun _ => rfl) (by simp) hallne sc hsc
      -- the value of a fingerprint: the scenario's, else some allowed one
      let dflt : String → String := fun h =>
        match dlookup h tb.params with
        | some vals => (allowedTexts vals).headD ""
        | none => ""
      let τ : String → String := fun h => (dlookup h sc).getD (dflt h)
      have hτsc : ∀ h w, dlookup h sc = some w → τ h = w := by
        intro h w hw; simp only [τ, hw, Option.getD_some]
      have hτ : ∀ h vals, dlookup h tb.params = some vals → vals ≠ [] → τ h ∈ allowedTexts vals := by
        intro h vals hl hvne
        cases hd : dlookup h sc with
        | some w => rw [hτsc h w hd]; exact hvals h w vals hd hl hvne
        | none =>
          simp only [τ, dflt, hd, Option.getD_none, hl]
          obtain ⟨a, as, has⟩ := List.exists_cons_of_ne_nil (hallne h vals hl hvne)
          rw [has]
          simp
      refine ⟨fun x => τ (H x), fun a b h => by simp only [h], ?_, ?_⟩
      · intro p vals ha hvne
        obtain ⟨vals', hl⟩ := params_complete ht hinit ha
        obtain ⟨p', hpp, ha'⟩ := params_sound hwf ht hinit hl
        have := href p p' hpp
        subst this
        have := allows_unique ha ha'
        subst this
        exact allowedTexts_inv (hpl p vals ha) (hτ _ vals hl hvne)
      · intro c hc
        obtain ⟨v, hv, _⟩ := hreq c hc
        obtain ⟨b, o, i, he, hl, g⟩ := hgood τ c hc v hv
        refine ⟨v, b, hv, he, ?_⟩
        have hk : HashKeys H sc := by
          intro k hk
          rw [hkeys] at hk
          rcases hk with hk | hk
          · cases hk
          · obtain ⟨kv, hkv, rfl⟩ := List.mem_map.1 hk
            exact hmw.hashes kv hkv
        have htst : o.test sc = .ok (some b) := by
          refine good_test g (hok c _ hl) (infl := m) ?_ hk ?_
          · intro h x hx
            exact (hmi h x).2 (.inr ⟨c, hc, o, i, hl, hx⟩)
          · intro h sets hmem
            have : h ∈ sc.map Prod.fst := (hkeys h).2 (.inr (List.mem_map.2 ⟨_, hmem, rfl⟩))
            cases hd : dlookup h sc with
            | none => exact absurd this (dlookup_none_iff.1 hd)
            | some w => exact ⟨w, rfl, fun s _ => by rw [hτsc h w hd]⟩
        obtain ⟨f, hf, rfl⟩ := testAll_inv _ _ _ htest
        obtain ⟨o', i', hl', ht'⟩ := hf c hc
        rw [hl] at hl'
        injection hl' with hl'
        injection hl' with hl'1 hl'2
        subst hl'1
        rw [htst] at ht'
        injection ht' with ht'
        rw [dlookup_foldl_dset, if_pos hc, ← ht']

/-- a fingerprint that distinguishes all references -/
def refHash : Val → String
  | .dict [(k, .str s)] => if k = .str "Ref" then String.ofList ('#' :: 's' :: s.toList) else "#"
  | .dict [(k, .int (.ofNat n))] =>
    if k = .str "Ref" then String.ofList ('#' :: 'p' :: List.replicate n 'x') else "#"
  | .dict [(k, .int (.negSucc n))] =>
    if k = .str "Ref" then String.ofList ('#' :: 'n' :: List.replicate n 'x') else "#"
  | _ => "#"

theorem refHash_head (v : Val) : ∃ l, refHash v = String.ofList ('#' :: l) := by
  have h0 : "#" = String.ofList ('#' :: []) := by decide
  unfold refHash
  split <;> (try split) <;> first | exact ⟨_, rfl⟩ | exact ⟨[], h0⟩

theorem refHash_distinct : RefsDistinct refHash := by
  intro p q h
  have inj : ∀ {a b : List Char}, String.ofList a = String.ofList b → a = b := by
    intro a b h
    have := congrArg String.toList h
    simpa using this
  rcases p with s | (m | m) <;> rcases q with s' | (n | n) <;>
    simp only [refTo, Key.toVal, refHash, if_true] at h <;>
    have h' := inj h <;> simp at h'
  · have := congrArg String.ofList h'
    simp only [String.ofList_toList] at this
    rw [this]
  · rw [h']
  · rw [h']

theorem evals_equals_inv {P : Val → Val → Prop} {conds : List (Key × Val)} {σ : Val → String} {a b : Val}
    {r : Bool} (h : Evals P conds σ (exEquals a b) r) :
    ∃ x y, Operand σ a x ∧ Operand σ b y ∧ r = (x == y) := by
  unfold exEquals at h
  generalize hv : Val.dict [(.str "Fn::Equals", .list [a, b])] = v at h
  cases h with
  | equals hp ha hb =>
    simp at hv
    obtain ⟨rfl, rfl⟩ := hv
    exact ⟨_, _, ha, hb, rfl⟩
  | and => simp at hv
  | or => simp at hv
  | not => simp at hv
  | named => simp at hv

/-- **C23** A comparison of two expressions gives impossible scenarios: both parameters are `a`, yet
different. -/
theorem C23_two_expressions_violated : ¬ C23_statement := by
  intro h
  have hex : (scenariosOf (getScenarios (fun _ s => s) (Conditions.init refHash 5 (.dict exTwo)).1
      [.str "C1", .str "C2", .str "C3"])).any (fun sc => dlookup (.str "C1") sc == some (some false) &&
        dlookup (.str "C2") sc == some (some true) && dlookup (.str "C3") sc == some (some true)) = true := by
    decide
  cases hg : getScenarios (fun _ s => s) (Conditions.init refHash 5 (.dict exTwo)).1
      [.str "C1", .str "C2", .str "C3"] with
  | error e => rw [hg] at hex; simp [scenariosOf] at hex
  | ok scs =>
    rw [hg, scenariosOf, List.any_eq_true] at hex
    obtain ⟨sc, hm, hsc⟩ := hex
    simp only [Bool.and_eq_true, beq_iff_eq] at hsc
    have hlit : NoHashLiterals refHash (conditionsOf exTwo) := by
      intro s hs v hv
      obtain ⟨l, hl⟩ := refHash_head v
      rw [hl] at hv
      have hv' := congrArg String.toList hv
      simp [conditionsOf, exTwo, dlookup, LitInDict, LitIn, LitInList, exEquals, refTo, Key.toVal] at hs
      rcases hs with (rfl | rfl) | (rfl | rfl) | (rfl | rfl) <;> simp at hv'
    have hev : ∀ a b : Val, IsExpr a → (IsExpr b ∨ PlainLit b) → ∀ σ, ∃ r,
        Evals AnyEquals (conditionsOf exTwo) σ (exEquals a b) r := by
      intro a b ha hb σ
      obtain ⟨k, w, rfl⟩ := ha
      rcases hb with ⟨k', w', rfl⟩ | hb
      · exact ⟨_, .equals trivial .expr .expr⟩
      · obtain ⟨s, hs, _⟩ := mkEqV_lit (H := refHash) hb
        exact ⟨_, .equals trivial .expr (.lit hs)⟩
    have hr : ∀ p, IsExpr (refTo p) := fun p => ⟨_, _, rfl⟩
    obtain ⟨σ, _, _, hall⟩ := h refHash 5 (fun _ s => s) exTwo (Conditions.init refHash 5 (.dict exTwo)).1
      [.str "C1", .str "C2", .str "C3"] scs (fun _ _ _ => Iff.rfl)
      (by simp [exTwo, exEquals, refTo, Val.WF, Val.WFDict, Val.WFList, Key.toVal])
      hlit refHash_distinct (Prod.ext rfl (by decide))
      (by
        intro c hc
        simp only [List.mem_cons, List.not_mem_nil, or_false] at hc
        rcases hc with rfl | rfl | rfl
        · exact ⟨_, rfl, hev _ _ (hr _) (.inl (hr _))⟩
        · exact ⟨_, rfl, hev _ _ (hr _) (.inr trivial)⟩
        · exact ⟨_, rfl, hev _ _ (hr _) (.inr trivial)⟩)
      ⟨.str "C1", by simp, .str "C2", by simp, by simp, _, _, refTo (.str "P1"), rfl, rfl,
        .left (hr _), .left (hr _)⟩ hg sc hm
    have get : ∀ (c : Key) (a b : Val) (r : Bool), c ∈ [Key.str "C1", .str "C2", .str "C3"] →
        dlookup c (conditionsOf exTwo) = some (exEquals a b) → dlookup c sc = some (some r) →
        ∃ x y, Operand σ a x ∧ Operand σ b y ∧ r = (x == y) := by
      intro c a b r hc hl hd
      obtain ⟨v, b', hv, he, hb⟩ := hall c hc
      rw [hl] at hv; injection hv with hv; subst hv
      rw [hd] at hb
      simp only [Option.some.injEq] at hb
      subst hb
      exact evals_equals_inv he
    obtain ⟨x1, y1, hx1, hy1, h1⟩ := get (.str "C1") _ _ false (by simp) rfl hsc.1.1
    obtain ⟨x2, y2, hx2, hy2, h2⟩ := get (.str "C2") _ _ true (by simp) rfl hsc.1.2
    obtain ⟨x3, y3, hx3, hy3, h3⟩ := get (.str "C3") _ _ true (by simp) rfl hsc.2
    rw [operand_expr (hr _) hx1, operand_expr (hr _) hy1] at h1
    rw [operand_expr (hr _) hx2, operand_lit rfl hy2] at h2
    rw [operand_expr (hr _) hx3, operand_lit rfl hy3] at h3
    have e2 := beq_iff_eq.1 h2.symm
    have e3 := beq_iff_eq.1 h3.symm
    rw [e2, e3] at h1
    simp at h1

/-- the hypotheses of `C23_sound_partial` are met -/
example : ∃ scs, getScenarios (fun _ s => s) (Conditions.init refHash 5 (.dict exOne)).1
      [.str "C1", .str "C2"] = .ok scs ∧ scs ≠ [] ∧
    ∀ sc ∈ scs, ∃ σ, Respects refHash σ ∧ Permitted exOne σ ∧
      ∀ c ∈ [Key.str "C1", .str "C2"], ∃ v b, dlookup c (conditionsOf exOne) = some v ∧
        Evals OneSided (conditionsOf exOne) σ v b ∧ dlookup c sc = some (some b) := by
  cases hg : getScenarios (fun _ s => s) (Conditions.init refHash 5 (.dict exOne)).1
      [.str "C1", .str "C2"] with
  | error e =>
    have : (scenariosOf (getScenarios (fun _ s => s) (Conditions.init refHash 5 (.dict exOne)).1
      [.str "C1", .str "C2"])).isEmpty = false := by decide
    rw [hg] at this
    cases this
  | ok scs =>
    have hne : (scenariosOf (getScenarios (fun _ s => s) (Conditions.init refHash 5 (.dict exOne)).1
      [.str "C1", .str "C2"])).isEmpty = false := by decide
    rw [hg] at hne
    have hev : ∀ σ, Evals OneSided (conditionsOf exOne) σ (exEquals (refTo (.str "P1")) (.str "a"))
        (σ (refTo (.str "P1")) == "a") := fun σ =>
      Evals.equals (.inl ⟨⟨_, _, rfl⟩, trivial⟩) .expr (.lit rfl)
    refine ⟨scs, rfl, (by intro h0; rw [h0] at hne; cases hne), ?_⟩
    refine C23_sound_partial refHash 5 (fun _ s => s) exOne _ _ scs exOne_wf ?_ refHash_distinct
      (Prod.ext rfl (by decide)) ?_ ?_ ?_ hg
    · intro s hs v hv
      obtain ⟨l, hl⟩ := refHash_head v
      rw [hl] at hv
      have hv' := congrArg String.toList hv
      simp [conditionsOf, exOne, dlookup, LitInDict, LitIn, LitInList, exEquals, refTo, Key.toVal] at hs
      rcases hs with (rfl | rfl) | rfl <;> simp at hv'
    · intro p vals ha
      obtain ⟨_, rfl⟩ := exOne_allows ha
      simp [PlainLit]
    · intro c hc
      simp only [List.mem_cons, List.not_mem_nil, or_false] at hc
      rcases hc with rfl | rfl
      · exact ⟨_, rfl, fun σ => ⟨_, hev σ⟩⟩
      · exact ⟨_, rfl, fun σ => ⟨_, .not (.named (v := exEquals (refTo (.str "P1")) (.str "a")) rfl (hev σ))⟩⟩
    · exact ⟨.str "C1", by simp, .str "C2", by simp, by simp, _, _, refTo (.str "P1"), rfl, rfl,
        .left ⟨_, _, rfl⟩, .inside (by simp) (by simp) (.named (name := "C1") (v := exEquals (refTo (.str "P1")) (.str "a")) rfl
          (.left ⟨_, _, rfl⟩))⟩

/-! ### C24 Evaluation agrees with CloudFormation -/

/-- **C24**, the full statement: a loaded condition tested in a scenario that gives the expressions it uses
the values of the assignment has the truth value CloudFormation gives it. -/
def C24_statement : Prop :=
  ∀ (H : Val → String) (fuel : Nat) (t : List (Key × Val)) (tb : CondTable) (σ : Val → String)
    (c : Key) (v : Val) (b : Bool) (o : CObj) (i : Infl) (sc : EqScenario),
    NoHashLiterals H (conditionsOf t) → Conditions.init H fuel (.dict t) = (tb, none) → Respects H σ →
    dlookup c (conditionsOf t) = some v → Evals AnyEquals (conditionsOf t) σ v b →
    dlookup c tb.conds = some (o, i) →
    (∀ k ∈ sc.map Prod.fst, ∃ x, k = H x) →
    (∀ x, Uses (conditionsOf t) v x → dlookup (H x) sc = some (σ x)) →
    o.test sc = .ok (some b)

/-- **C24**, what holds: conditions that compare expressions with text or integer literals, of any nesting
and with any chains of named conditions. Missing: comparisons of two expressions or two literals, or with
Boolean literals. -/
theorem C24_agrees_partial (H : Val → String) (fuel : Nat) (t : List (Key × Val)) (tb : CondTable)
    (σ : Val → String) (c : Key) (v : Val) (b : Bool) (o : CObj) (i : Infl) (sc : EqScenario)
    (hno : NoHashLiterals H (conditionsOf t)) (hinit : Conditions.init H fuel (.dict t) = (tb, none))
    (hσ : Respects H σ) (hv : dlookup c (conditionsOf t) = some v)
    (he : Evals OneSided (conditionsOf t) σ v b) (hl : dlookup c tb.conds = some (o, i))
    (hk : ∀ k ∈ sc.map Prod.fst, ∃ x, k = H x)
    (hsc : ∀ x, Uses (conditionsOf t) v x → dlookup (H x) sc = some (σ x)) :
    o.test sc = .ok (some b) := by
  obtain ⟨o', i', hl', g⟩ := table_good (τ := hashVal H σ) (conditionsOf_some hv) hinit hv he
    (fun x _ => hashVal_eq hσ x)
  rw [hl] at hl'
  injection hl' with hl'
  injection hl' with h1 h2
  subst h1 h2
  exact good_test' g (table_ok hno hinit c _ hl) hk (fun x hx => by rw [hashVal_eq hσ]; exact hsc x hx)

/-- a comparison of two literals -/
def exLit : List (Key × Val) := [(.str "Conditions", .dict [(.str "C", exEquals (.str "a") (.str "a"))])]

/-- a comparison with a Boolean literal -/
def exBool : List (Key × Val) :=
  [(.str "Conditions", .dict [(.str "C", exEquals (refTo (.str "P1")) (.bool true))])]

/-- **C24** The comparison of two equal literals has no value. -/
theorem C24_literals_violated : ¬ C24_statement := by
  intro h
  have := h exHash 5 exLit (Conditions.init exHash 5 (.dict exLit)).1 (fun _ => "a") (.str "C")
    (exEquals (.str "a") (.str "a")) true
    (.cond [] [] [] (some { left := { str := some "a" }, right := { str := some "a" } })) [] []
    (by
      refine exHash_noLit fun s hs => ?_
      simp [conditionsOf, exLit, dlookup, LitInDict, LitIn, LitInList, exEquals] at hs
      subst hs; decide)
    (Prod.ext rfl (by decide)) (fun _ _ _ => rfl) rfl (.equals (x := "a") (y := "a") trivial (.lit rfl) (.lit rfl)) rfl
    (by simp)
    (by
      intro x hx
      rcases uses_equals hx with ⟨_, h⟩ | ⟨_, h⟩ <;> obtain ⟨k, w, h⟩ := h <;> cases h)
  rw [CObj.test] at this
  simp [CEquals.test] at this

/-- **C24** A parameter with the value `true` compared with the literal `true`: the code says they differ. -/
theorem C24_booleans_violated : ¬ C24_statement := by
  intro h
  have := h exHash 5 exBool (Conditions.init exHash 5 (.dict exBool)).1 (fun _ => "true") (.str "C")
    (exEquals (refTo (.str "P1")) (.bool true)) true
    (.cond [] [] [] (some { left := { fn := some "#1" }, right := { str := some "True" } })) _ [("#1", "true")]
    (by
      refine exHash_noLit fun s hs => ?_
      simp [conditionsOf, exBool, dlookup, LitInDict, LitIn, LitInList, exEquals, refTo, Key.toVal] at hs
      rcases hs with rfl | rfl <;> decide)
    (Prod.ext rfl (by decide)) (fun _ _ _ => rfl) rfl
    (.equals (x := "true") (y := "true") trivial .expr (.lit rfl)) rfl
    (by simp; exact ⟨refTo (.str "P1"), by decide⟩)
    (by
      intro x hx
      rcases uses_equals hx with ⟨rfl, h⟩ | ⟨_, h⟩
      · decide
      · obtain ⟨k, w, h⟩ := h; cases h)
  rw [CObj.test] at this
  simp [CEquals.test, EqV.eqv] at this

/-- the hypotheses of `C24_agrees_partial` are met -/
example : CObj.test [("#1", "a")] (.cond [] [] [] (some { left := { fn := some "#1" }, right := { str := some "a" } })) =
    .ok (some true) :=
  C24_agrees_partial exHash 5 exOne (Conditions.init exHash 5 (.dict exOne)).1 (fun _ => "a") (.str "C1")
    (exEquals (refTo (.str "P1")) (.str "a")) true _ _ _ exOne_noLit (Prod.ext rfl (by decide))
    (fun _ _ _ => rfl) rfl (exOne_evals "a") rfl (by simp; exact ⟨refTo (.str "P1"), by decide⟩)
    (by
      intro x hx
      rcases uses_equals hx with ⟨rfl, h⟩ | ⟨_, h⟩
      · decide
      · obtain ⟨k, w, h⟩ := h; cases h)

/-! ### C25 Loading never fails -/

/-- **C25**, the full statement: whatever the template, loading its conditions succeeds (`Conditions.init` is
total) and asking for scenarios does not raise. -/
def C25_statement : Prop :=
  ∀ (H : Val → String) (fuel : Nat) (enum : String → List String → List String) (tmpl : Val) (req : List Key),
    Enumerates enum → ∃ scs, getScenarios enum (Conditions.init H fuel tmpl).1 req = .ok scs

/-- one condition names another that does not exist -/
def exMissing : List (Key × Val) :=
  [(.str "Conditions", .dict [
    (.str "C1", .dict [(.str "Fn::And", .list [exEquals (refTo (.str "P1")) (.str "a"),
      .dict [(.str "Condition", .str "Gone")]])]),
    (.str "C2", exEquals (refTo (.str "P1")) (.str "a"))])]

/-- **C25** A condition that names a missing condition makes the request raise. -/
theorem C25_missing_violated : ¬ C25_statement := by
  intro h
  obtain ⟨scs, hs⟩ := h exHash 5 (fun _ s => s) (.dict exMissing) [.str "C1", .str "C2"]
    (fun _ _ _ => Iff.rfl)
  have : (match getScenarios (fun _ s => s) (Conditions.init exHash 5 (.dict exMissing)).1
    [.str "C1", .str "C2"] with | .ok _ => true | .error _ => false) = false := by decide
  rw [hs] at this
  cases this

/-- **C25** The only exception a request can end with is the `AttributeError` of testing a condition that was
not understood. -/
theorem C25_only_attribute_error (enum : String → List String → List String) (tb : CondTable)
    (req : List Key) (e : PyErr) (h : getScenarios enum tb req = .error e) :
    e = .attributeError "'NoneType' object has no attribute 'test'" := by
  unfold getScenarios at h
  split at h
  · cases h
  · cases hm : matchLoop tb req [] false with
    | none => rw [hm] at h; cases h
    | some mh =>
      obtain ⟨m, hit⟩ := mh
      rw [hm] at h
      simp only at h
      split at h
      · split at h <;> cases h
      · obtain ⟨sc, _, ht⟩ := collect_error _ _ _ h
        exact testAll_error _ _ _ ht

/-- **C25**, what holds: requests for conditions that compare expressions with text or integer literals do not
raise. Missing: malformed conditions. -/
theorem C25_request_partial (H : Val → String) (fuel : Nat) (enum : String → List String → List String)
    (t : List (Key × Val)) (tb : CondTable) (req : List Key)
    (hinit : Conditions.init H fuel (.dict t) = (tb, none))
    (hreq : ∀ c ∈ req, ∃ v, dlookup c (conditionsOf t) = some v ∧ WellFormed (conditionsOf t) v) :
    ∃ scs, getScenarios enum tb req = .ok scs := by
  unfold getScenarios
  split
  · exact ⟨_, rfl⟩
  · cases hm : matchLoop tb req [] false with
    | none => exact ⟨_, rfl⟩
    | some mh =>
      obtain ⟨m, hit⟩ := mh
      simp only
      split
      · split <;> exact ⟨_, rfl⟩
      · refine collect_total _ _ ?_
        intro s _
        have : ∀ l : List Key, (∀ c ∈ l, c ∈ req) → ∀ acc, ∃ r, testAll tb s l acc = .ok r := by
          intro l
          induction l with
          | nil => intro _ acc; exact ⟨acc, rfl⟩
          | cons c cs ih =>
            intro hl acc
            obtain ⟨v, hv, hw⟩ := hreq c (hl c List.mem_cons_self)
            obtain ⟨b, he⟩ := hw (fun x => H x)
            obtain ⟨o, i, hlk, g⟩ := table_good (τ := id) (conditionsOf_some hv) hinit hv he (fun _ _ => rfl)
            obtain ⟨r, hr⟩ := test_complete s o g.complete
            rw [testAll, hlk]
            simp only [hr]
            exact ih (fun c hc => hl c (List.mem_cons_of_mem _ hc)) _
        exact this req (fun _ h => h) []

/-- **C25**, what holds of loading: when all conditions are of that kind (so not cyclic) and all parameters are
objects, everything is loaded within some recursion limit. -/
theorem C25_load_partial (H : Val → String) (t conds : List (Key × Val))
    (ht : dlookup (.str "Conditions") t = some (.dict conds))
    (hc : ∀ c v, dlookup c conds = some v → WellFormed conds v)
    (hp : dlookup (.str "Parameters") t = none ∨ ∃ ps, dlookup (.str "Parameters") t = some (.dict ps) ∧
      ∀ kv ∈ ps, ∃ body, kv.2 = .dict body) :
    ∃ n0, ∀ fuel ≥ n0, ∃ tb, Conditions.init H fuel (.dict t) = (tb, none) ∧
      ∀ c, (∃ v, dlookup c conds = some v) → ∃ r, dlookup c tb.conds = some r := by
  -- enough fuel for every condition
  obtain ⟨n0, hn0⟩ := list_max (P := fun (c : Key) n => ∀ v, dlookup c conds = some v → NoRec H (.dict t) v n)
    (conds.map Prod.fst) (by
      intro c _
      cases hd : dlookup c conds with
      | none => exact ⟨0, by simp⟩
      | some v =>
        obtain ⟨b, he⟩ := hc c v hd (fun _ => "")
        obtain ⟨n, hn⟩ := enough_fuel (H := H) ht he
        exact ⟨n, fun m hm w hw => by injection hw with hw; subst hw; exact hn m hm⟩)
  refine ⟨n0, ?_⟩
  intro fuel hfuel
  have hby : ∀ c ∈ conds.map Prod.fst, ∃ r, condByName (processCondition H (.dict t) fuel) (.dict t) c.toVal = .ok r := by
    intro c hm
    rw [condByName_key c ht]
    cases hd : dlookup c conds with
    | none => exact absurd hm (dlookup_none_iff.1 hd)
    | some v =>
      simp only [Option.getD_some]
      have hno := (hn0 fuel hfuel c hm v hd).1
      obtain ⟨b, he⟩ := hc c v hd H
      rcases hpc : processCondition H (.dict t) fuel v with ⟨i, p⟩
      rcases (parse_good (τ := id) ht he (fun _ _ => rfl) fuel).1 with h | ⟨p', h, g⟩
      · exact absurd h hno
      · rw [hpc] at h
        simp only at h
        subst h
        exact ⟨_, rfl⟩
  have hload : ∀ (keys : List Key) acc, (∀ c ∈ keys, c ∈ conds.map Prod.fst) →
      ∃ cs, loadConds H (.dict t) fuel (keys.map Key.toVal) acc = (cs, none) := by
    intro keys
    induction keys with
    | nil => intro acc _; exact ⟨acc, rfl⟩
    | cons k ks ih =>
      intro acc hk
      obtain ⟨r, hr⟩ := hby k (hk k List.mem_cons_self)
      rw [List.map_cons, loadConds, hr]
      have := ih (dset k r acc) (fun c hc => hk c (List.mem_cons_of_mem _ hc))
      cases k <;> exact this
  obtain ⟨cs, hcs⟩ := hload (conds.map Prod.fst) [] (fun _ h => h)
  have hall : ∀ c, (∃ v, dlookup c conds = some v) → ∃ r, dlookup c cs = some r := by
    rintro c ⟨v, hv⟩
    obtain ⟨r, _, hr⟩ := (loadConds_ok _ _ _ hcs c).1 (List.mem_map.2 ⟨_, dlookup_mem hv, rfl⟩)
    exact ⟨r, hr⟩
  have hparams : ∀ (ps : List (Key × Val)) acc, (∀ kv ∈ ps, ∃ body, kv.2 = .dict body) →
      (loadParams H ps acc).2 = none := by
    intro ps
    induction ps with
    | nil => intro acc _; rfl
    | cons kv rest ih =>
      intro acc h
      obtain ⟨p, body⟩ := kv
      obtain ⟨b, hb⟩ := h _ List.mem_cons_self
      simp only at hb
      subst hb
      rw [loadParams, getD_dict]
      simp only
      split
      · next heq => cases heq
      · exact ih _ (fun kv hk => h kv (List.mem_cons_of_mem _ hk))
      · exact ih _ (fun kv hk => h kv (List.mem_cons_of_mem _ hk))
  unfold Conditions.init
  simp only [getD_dict, ht, Option.getD_some, pyIterVal, toVal_keys, hcs]
  rcases hp with hp | ⟨ps, hp, hb⟩
  · rw [hp]
    exact ⟨_, rfl, hall⟩
  · rw [hp]
    simp only [Option.getD_some]
    exact ⟨_, Prod.ext rfl (hparams ps [] hb), hall⟩

theorem exOne_wellFormed {c : Key} {v : Val} (h : dlookup c (conditionsOf exOne) = some v) :
    WellFormed (conditionsOf exOne) v := by
  intro σ
  have hev : Evals OneSided (conditionsOf exOne) σ (exEquals (refTo (.str "P1")) (.str "a"))
      (σ (refTo (.str "P1")) == "a") := Evals.equals (.inl ⟨⟨_, _, rfl⟩, trivial⟩) .expr (.lit rfl)
  have hm := dlookup_mem h
  simp only [conditionsOf, exOne, dlookup, if_true, List.mem_cons, Prod.mk.injEq, List.not_mem_nil,
    or_false] at hm
  rcases hm with ⟨_, rfl⟩ | ⟨_, rfl⟩
  · exact ⟨_, hev⟩
  · exact ⟨_, .not (.named (v := exEquals (refTo (.str "P1")) (.str "a")) rfl hev)⟩

/-- the hypotheses of `C25_request_partial` and `C25_load_partial` are met -/
example : ∃ scs, getScenarios (fun _ s => s) (Conditions.init exHash 5 (.dict exOne)).1
    [.str "C1", .str "C2"] = .ok scs :=
  C25_request_partial exHash 5 _ exOne _ _ (Prod.ext rfl (by decide)) (by
    intro c hc
    simp only [List.mem_cons, List.not_mem_nil, or_false] at hc
    rcases hc with rfl | rfl
    · exact ⟨_, rfl, exOne_wellFormed (c := .str "C1") rfl⟩
    · exact ⟨_, rfl, exOne_wellFormed (c := .str "C2") rfl⟩)

example (H : Val → String) : ∃ n0, ∀ fuel ≥ n0, ∃ tb, Conditions.init H fuel (.dict exOne) = (tb, none) ∧
      ∀ c, (∃ v, dlookup c (conditionsOf exOne) = some v) → ∃ r, dlookup c tb.conds = some r :=
  C25_load_partial H exOne (conditionsOf exOne) rfl (fun _ _ => exOne_wellFormed)
    (.inr ⟨_, rfl, by simp⟩)

/-! ### C26 Order of enumeration -/

/-- **C26** The scenarios do not depend on the order in which Python enumerates sets: both orders raise the same
exception, or both return the same scenarios. -/
theorem C26_order_independent (H : Val → String) (fuel : Nat) (e1 e2 : String → List String → List String)
    (t : List (Key × Val)) (tb : CondTable) (err : Option PyErr) (req : List Key)
    (h1 : Enumerates e1) (h2 : Enumerates e2) (hno : NoHashLiterals H (conditionsOf t))
    (hinit : Conditions.init H fuel (.dict t) = (tb, err)) :
    (∀ e, getScenarios e1 tb req = .error e ↔ getScenarios e2 tb req = .error e) ∧
    ∀ s1 s2, getScenarios e1 tb req = .ok s1 → getScenarios e2 tb req = .ok s2 →
      ∀ sc, sc ∈ s1 ↔ sc ∈ s2 := by
  have hok := table_ok hno hinit
  have hinfl : ∀ c r, dlookup c tb.conds = some r → InflWF H r.2 := fun c r h => (hok c r h).1
  unfold getScenarios
  by_cases hemp : tb.conds.isEmpty = true
  · rw [if_pos hemp, if_pos hemp]
    exact ⟨fun _ => Iff.rfl, fun s1 s2 h h' => by injection h with h; injection h' with h'; simp [← h, ← h']⟩
  · rw [if_neg hemp, if_neg hemp]
    cases hm : matchLoop tb req [] false with
    | none =>
      exact ⟨fun _ => Iff.rfl, fun s1 s2 h h' => by injection h with h; injection h' with h'; simp [← h, ← h']⟩
    | some mh =>
      obtain ⟨m, hit⟩ := mh
      simp only
      by_cases hh : (!hit) = true
      · rw [if_pos hh, if_pos hh]
        refine ⟨fun _ => Iff.rfl, fun s1 s2 h h' => ?_⟩
        rw [h] at h'
        injection h' with h'
        simp [h']
      · rw [if_neg hh, if_neg hh]
        obtain ⟨hmw, hmi, _, _⟩ := matchLoop_some hinfl req [] false m hit hm inflWF_nil
        -- scenarios that cannot be distinguished have the same result
        have hsim : ∀ (ea eb : String → List String → List String), Enumerates ea → Enumerates eb →
            ∀ a ∈ buildScenarios ea tb.params m [], ∃ b ∈ buildScenarios eb tb.params m [],
              testAll tb a req [] = testAll tb b req [] := by
          intro ea eb ha hb a hma
          obtain ⟨b, hmb, hs⟩ := build_order (params := tb.params) (full := m) ha hb m [] [] (by
            intro h sets hm x hx
            unfold InInfl at hx
            rw [dlookup_of_mem hmw.nodup hm] at hx
            exact hx) Iff.rfl (by simp) a hma
          refine ⟨b, hmb, ?_⟩
          have hk : HashKeys H a := by
            have keys : ∀ (infl : Infl) (acc : List EqScenario), (∀ kv ∈ infl, ∃ x, kv.1 = H x) →
                (∀ s ∈ acc, HashKeys H s) → ∀ s ∈ buildScenarios ea tb.params infl acc, HashKeys H s := by
              intro infl
              induction infl with
              | nil => intro acc _ h; exact h
              | cons kv rest ih =>
                intro acc hkv hacc
                rw [buildScenarios, multiplyEquals_eq]
                refine ih _ (fun kv h => hkv kv (List.mem_cons_of_mem _ h)) ?_
                intro s hs
                obtain ⟨c, hc, fc, v, _, rfl⟩ := mem_multiplyLoop _ _ hs
                have hck : HashKeys H c := by
                  unfold curs at hc
                  split at hc
                  · rw [List.mem_singleton] at hc; subst hc; intro k hk; cases hk
                  · exact hacc c hc
                intro k hk
                rw [dset_keys] at hk
                split at hk
                · exact hck k hk
                · rw [List.mem_append, List.mem_singleton] at hk
                  rcases hk with hk | rfl
                  · exact hck k hk
                  · exact hkv kv List.mem_cons_self
            exact keys m [] hmw.hashes (by simp) a hma
          have : ∀ (l : List Key) acc, (∀ c ∈ l, c ∈ req) → testAll tb a l acc = testAll tb b l acc := by
            intro l
            induction l with
            | nil => intro acc _; rfl
            | cons c cs ih =>
              intro acc hl
              rw [testAll, testAll]
              cases hd : dlookup c tb.conds with
              | none => rfl
              | some oi =>
                obtain ⟨o, i⟩ := oi
                simp only
                rw [test_congr a b o (fun e he => sim_test (infl := m)
                  (eqOK_mono (fun h x hx => (hmi h x).2 (.inr ⟨c, hl c List.mem_cons_self, o, i, hd, hx⟩))
                    ((hok c _ hd).2 e he)) hk hs)]
                cases o.test b with
                | error e => rfl
                | ok r => exact ih _ (fun c hc => hl c (List.mem_cons_of_mem _ hc))
          exact this req [] (fun _ h => h)
        constructor
        · have dir : ∀ (ea eb : String → List String → List String), Enumerates ea → Enumerates eb → ∀ e,
              collect tb req (buildScenarios ea tb.params m []) [] = .error e →
              collect tb req (buildScenarios eb tb.params m []) [] = .error e := by
            intro ea eb ha hb e he
            obtain ⟨sc, hsc, ht⟩ := collect_error _ _ _ he
            obtain ⟨sc', hsc', ht'⟩ := hsim ea eb ha hb sc hsc
            rw [ht'] at ht
            rw [collect_error' _ _ hsc' ht, testAll_error _ _ _ ht]
          exact fun e => ⟨dir e1 e2 h1 h2 e, dir e2 e1 h2 h1 e⟩
        · intro s1 s2 hs1 hs2 sc
          rw [(collect_ok _ _ _ hs1).1, (collect_ok _ _ _ hs2).1]
          constructor
          · rintro (h | ⟨a, ha, ht⟩)
            · exact .inl h
            · obtain ⟨b, hb, hab⟩ := hsim e1 e2 h1 h2 a ha
              exact .inr ⟨b, hb, by rw [← hab]; exact ht⟩
          · rintro (h | ⟨a, ha, ht⟩)
            · exact .inl h
            · obtain ⟨b, hb, hab⟩ := hsim e2 e1 h2 h1 a ha
              exact .inr ⟨b, hb, by rw [← hab]; exact ht⟩

/-- the hypotheses of `C26_order_independent` are met -/
example := C26_order_independent exHash 5 (fun _ s => s) (fun _ s => s.reverse) exOne
  (Conditions.init exHash 5 (.dict exOne)).1 none [.str "C1", .str "C2"] (fun _ _ _ => Iff.rfl)
  (fun _ _ _ => List.mem_reverse) exOne_noLit (Prod.ext rfl (by decide))

/-- the hypotheses of the theorems for C21 are met -/
example : (∃ scs, getScenarios (fun _ s => s) (Conditions.init exHash 5 (.dict exOne)).1
    [.str "C1", .str "C2"] = .ok scs) ∧ [Key.str "C1", .str "C2"].Nodup ∧
    ∀ r, (Key.str "Gone", r) ∉ (Conditions.init exHash 5 (.dict exOne)).1.conds :=
  ⟨C25_request_partial exHash 5 _ exOne _ _ (Prod.ext rfl (by decide)) (by
    intro c hc
    simp only [List.mem_cons, List.not_mem_nil, or_false] at hc
    rcases hc with rfl | rfl
    · exact ⟨_, rfl, exOne_wellFormed (c := .str "C1") rfl⟩
    · exact ⟨_, rfl, exOne_wellFormed (c := .str "C2") rfl⟩), by decide, by
    intro r hr
    have : (Key.str "Gone") ∈ (Conditions.init exHash 5 (.dict exOne)).1.conds.map Prod.fst :=
      List.mem_map.2 ⟨_, hr, rfl⟩
    revert this
    decide⟩

end CfnLint
